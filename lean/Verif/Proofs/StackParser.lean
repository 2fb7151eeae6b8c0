import Verif.Model.StackParser
import Verif.Proofs.LexSim
/-! The stack parser as a fold over the token sequence. -/

namespace Pdf

/-- Feeding tokens, results collected in the state. -/
def feedRun (h : Hooks) (st : StackSt) (e : PyErr) : List (Nat × Tok) → List (Nat × Obj) × PyErr
  | [] => (st.results, e)
  | (p, t) :: ts =>
    match st.feed h p t with
    | .ok st' => feedRun h st' e ts
    | .error e' => (st.results, e')

def StackSt.pre (r : List (Nat × Obj)) (st : StackSt) : StackSt := { st with results := r ++ st.results }

def mapOk {α : Type} (f : α → α) : Except PyErr α → Except PyErr α
  | .ok a => .ok (f a)
  | .error e => .error e

/-- A hook that only appends to the results. -/
structure Hooks.Frame (h : Hooks) : Prop where
  keyword : ∀ st r pos name, h.keyword (st.pre r) pos name = mapOk (StackSt.pre r) (h.keyword st pos name)
  flush : ∀ st r, h.flush (st.pre r) = (h.flush st).pre r
  context : ∀ st, (h.flush st).context = st.context

theorem frame_doRef (st : StackSt) (r pos) : (st.pre r).doRef pos = mapOk (StackSt.pre r) (st.doRef pos) := by
  have hc : ((st.pre r).pop 2).1 = (st.pop 2).1 := rfl
  unfold StackSt.doRef
  rw [hc]
  split
  · split
    · rfl
    · split <;> rfl
  · rfl

theorem frame_file : fileHooks.Frame where
  keyword st r pos name := by
    simp only [fileHooks, fileKeyword]
    repeat' split
    · simp [StackSt.pop, StackSt.pre, mapOk]
    · simp [StackSt.pop, StackSt.pre, mapOk]
    · rfl
    · exact frame_doRef st r pos
    · rfl
  flush st r := rfl
  context st := rfl

theorem frame_stream : streamHooks.Frame where
  keyword st r pos name := by
    simp only [streamHooks]
    repeat' split
    · exact frame_doRef st r pos
    · rfl
    · rfl
  flush st r := by simp [streamHooks, StackSt.flushAll, StackSt.pre]
  context st := rfl

theorem frame_content : contentHooks.Frame where
  keyword st r pos name := rfl
  flush st r := by simp [contentHooks, StackSt.flushAll, StackSt.pre]
  context st := rfl

theorem frame_endType (st : StackSt) (r t) :
    (st.pre r).endType t = match st.endType t with
      | .ok (q, st') => .ok (q, st'.pre r)
      | .error e => .error e := by
  unfold StackSt.endType StackSt.pre
  dsimp only
  split
  · rfl
  · split <;> rfl

theorem frame_closeSeq (st : StackSt) (r t) : (st.pre r).closeSeq t = mapOk (StackSt.pre r) (st.closeSeq t) := by
  unfold StackSt.closeSeq
  rw [frame_endType]
  cases st.endType t with
  | ok q => rfl
  | error e => dsimp only; split <;> rfl

theorem frame_closeDict (st : StackSt) (r) : (st.pre r).closeDict = mapOk (StackSt.pre r) st.closeDict := by
  unfold StackSt.closeDict
  rw [frame_endType]
  cases st.endType .d with
  | ok q =>
    dsimp only
    split
    · rfl
    · split <;> rfl
  | error e => dsimp only; split <;> rfl

theorem frame_feed {h : Hooks} (hf : h.Frame) (st : StackSt) (r pos tok) :
    (st.pre r).feed h pos tok = mapOk (StackSt.pre r) (st.feed h pos tok) := by
  have fin : ∀ x : Except PyErr StackSt, h.settle (mapOk (StackSt.pre r) x) = mapOk (StackSt.pre r) (h.settle x) := by
    intro x
    cases x with
    | error e => rfl
    | ok st' =>
      simp only [mapOk, Hooks.settle]
      have : (st'.pre r).context = st'.context := rfl
      rw [this]
      split
      · simp only [hf.flush]
      · rfl
  unfold StackSt.feed
  rw [← fin]
  congr 1
  unfold StackSt.feedBody
  split
  all_goals try rfl
  repeat' split
  · rfl
  · exact frame_closeSeq st r _
  · rfl
  · exact frame_closeDict st r
  · rfl
  · exact frame_closeSeq st r _
  · exact hf.keyword _ _ _ _

theorem feedRun_pre {h : Hooks} (hf : h.Frame) (e : PyErr) (ts : List (Nat × Tok)) (st : StackSt) (r) :
    feedRun h (st.pre r) e ts = (r ++ (feedRun h st e ts).1, (feedRun h st e ts).2) := by
  induction ts generalizing st with
  | nil => rfl
  | cons x xs ih =>
    obtain ⟨p, t⟩ := x
    simp only [feedRun, frame_feed hf]
    cases st.feed h p t with
    | ok st' => exact ih st'
    | error e' => rfl

/-- What one call of `nextobject` does, in terms of all results to come. -/
def NextObjOk (h : Hooks) (all : List (Nat × Obj) × PyErr) (r : Except PyErr (Nat × Obj) × PSt × StackSt) : Prop :=
  match all with
  | (x :: xs, e) => r.1 = .ok x ∧ r.2.1.Inv ∧ feedRun h r.2.2 r.2.1.stream.2 r.2.1.stream.1 = (xs, e)
  | ([], e) => r.1 = .error e

theorem nextobjectLoop_spec {h : Hooks} (hf : h.Frame) {b : Nat} (hb : 0 < b) (fuel : Nat) (ps : PSt) (st : StackSt) (hi : ps.Inv)
    (hfu : ps.stream.1.length + 2 ≤ fuel) :
    NextObjOk h (feedRun h st ps.stream.2 ps.stream.1) (nextobjectLoop h b fuel ps st) := by
  induction fuel generalizing ps st with
  | zero => omega
  | succ fuel ih =>
    unfold nextobjectLoop
    cases hr : st.results with
    | cons x xs =>
      have h1 : st = ({ st with results := xs } : StackSt).pre [x] := by
        obtain ⟨c1, c2, c3, c4⟩ := st; simp only [StackSt.pre] at *; rw [hr]; rfl
      have := feedRun_pre hf ps.stream.2 ps.stream.1 { st with results := xs } [x]
      rw [← h1] at this
      rw [this]
      exact ⟨rfl, hi, rfl⟩
    | nil =>
      dsimp only
      have hn := nexttoken_spec hb ps hi
      cases hx : ps.nexttoken b with
      | mk q ps' =>
      rw [hx] at hn
      obtain ⟨n1, n2⟩ := hn
      dsimp only at n1 n2
      rcases hs : ps.stream with ⟨_ | ⟨⟨p, t⟩, ts⟩, e⟩
      · rw [hs] at n2
        obtain ⟨n2, n3⟩ := n2
        subst n2
        simp only [feedRun, hr]
        rfl
      · rw [hs] at n2
        obtain ⟨n2, n3⟩ := n2
        subst n2
        dsimp only
        simp only [feedRun]
        cases hfd : st.feed h p t with
        | error e' => dsimp only; rw [hr]; rfl
        | ok st' =>
          dsimp only
          have := ih ps' st' n1 (by rw [n3]; rw [hs] at hfu; simp at hfu; dsimp only; omega)
          rw [n3] at this
          exact this

theorem nextobject_spec {h : Hooks} (hf : h.Frame) {b : Nat} (hb : 0 < b) (ps : PSt) (st : StackSt) (hi : ps.Inv) :
    NextObjOk h (feedRun h st ps.stream.2 ps.stream.1) (nextobject h b ps st) := by
  refine nextobjectLoop_spec hf hb _ ps st hi ?_
  have h1 := lexRun_count ps.unread ps.lex ps.rpos
  have h2 := pend_le ps.lex
  simp only [PSt.stream, Stream.pre, List.length_append]
  omega

theorem objects_spec {h : Hooks} (hf : h.Frame) {b : Nat} (hb : 0 < b) (n : Nat) (ps : PSt) (st : StackSt) (hi : ps.Inv)
    (xs : List (Nat × Obj)) (e : PyErr) (hx : feedRun h st ps.stream.2 ps.stream.1 = (xs, e)) (hn : xs.length < n) :
    objects h b n ps st = (xs.map Prod.snd, some e) := by
  induction n generalizing ps st xs with
  | zero => omega
  | succ n ih =>
    have hs := nextobject_spec hf hb ps st hi
    rw [hx] at hs
    unfold objects
    cases hq : nextobject h b ps st with
    | mk r q =>
    obtain ⟨ps', st'⟩ := q
    rw [hq] at hs
    cases xs with
    | nil =>
      simp only [NextObjOk] at hs
      subst hs; rfl
    | cons x xs =>
      obtain ⟨h1, h2, h3⟩ := hs
      dsimp only at h1; subst h1
      dsimp only
      rw [ih ps' st' h2 xs h3 (by simp at hn; omega)]
      rfl

/-- All objects of a file. -/
theorem parseObjects_spec {h : Hooks} (hf : h.Frame) {b : Nat} (hb : 0 < b) (data : Bytes) (n : Nat) (xs e)
    (hx : feedRun h {} (lexRun {} 0 data).2 (lexRun {} 0 data).1 = (xs, e)) (hn : xs.length < n) :
    parseObjects h b data n = (xs.map Prod.snd, some e) := by
  refine objects_spec hf hb n _ _ (inv_seek data 0) xs e ?_ hn
  rw [stream_seek, List.drop_zero, hx]

end Pdf

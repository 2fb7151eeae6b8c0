import Verif.Proofs.Object
/-! Top level objects, independence of positions, stray brackets. -/

namespace Pdf
open Spec

/-- All objects up to a number of calls. -/
theorem objects_take {h : Hooks} (hf : h.Frame) {b : Nat} (hb : 0 < b) (n : Nat) (ps : PSt) (st : StackSt) (hi : ps.Inv)
    (xs : List (Nat × Obj)) (e : PyErr) (hx : feedRun h st ps.stream.2 ps.stream.1 = (xs, e)) :
    objects h b n ps st = ((xs.map Prod.snd).take n, if xs.length < n then some e else none) := by
  induction n generalizing ps st xs with
  | zero => simp [objects]
  | succ n ih =>
    have hs := nextobject_spec hf hb ps st hi
    rw [hx] at hs
    unfold objects
    cases hq : nextobject h b ps st with
    | mk r q =>
    obtain ⟨ps', st'⟩ := q
    rw [hq] at hs
    cases xs with
    | nil => simp only [NextObjOk] at hs; subst hs; simp
    | cons x xs =>
      obtain ⟨h1, h2, h3⟩ := hs
      dsimp only at h1; subst h1
      dsimp only
      rw [ih ps' st' h2 xs h3]
      simp

theorem parseObjects_take {h : Hooks} (hf : h.Frame) {b : Nat} (hb : 0 < b) (data : Bytes) (n : Nat) (xs e)
    (hx : feedRun h {} (lexRun {} 0 data).2 (lexRun {} 0 data).1 = (xs, e)) :
    parseObjects h b data n = ((xs.map Prod.snd).take n, if xs.length < n then some e else none) := by
  refine objects_take hf hb n _ _ (inv_seek data 0) xs e ?_
  rw [stream_seek, List.drop_zero, hx]

/-! ### Top level with flushing -/

/-- Nothing open, nothing waiting. -/
structure Idle (st : StackSt) : Prop where
  context : st.context = []
  curtype : st.curtype = none
  curstack : st.curstack = []

theorem settle_push {h : Hooks} (hf : ∀ st, h.flush st = st.flushAll) {st : StackSt} (hi : Idle st) (x) :
    h.settle (.ok (st.push x)) = .ok { st with results := st.results ++ [x] } := by
  obtain ⟨c, t, s, r⟩ := st
  obtain ⟨h1, h2, h3⟩ := hi
  simp only at h1 h2 h3
  subst h1 h2 h3
  simp [Hooks.settle, StackSt.push, hf, StackSt.flushAll]

theorem emits {h : Hooks} {D : Dialect} (hD : h.Speaks D) (hf : ∀ st, h.flush st = st.flushAll) {ts : List Tok} {o : Obj}
    (hw : Writes D ts o) (hr : ∀ i g, o ≠ .ref i g) (st : StackSt) (hi : Idle st) (pts : List (Nat × Tok))
    (hp : pts.map Prod.snd = ts) : ∃ p, feedAll h st pts = .ok { st with results := st.results ++ [(p, o)] } := by
  have atom : ∀ {t : Tok} {o : Obj} (pts : List (Nat × Tok)), pts.map Prod.snd = [t] →
      (∀ (st : StackSt) p, st.feedBody h p t = .ok (st.push (p, o))) →
      ∃ p, feedAll h st pts = .ok { st with results := st.results ++ [(p, o)] } := by
    intro t o pts hp hb
    obtain ⟨p, r, rfl, hr⟩ := map_snd_cons hp
    have : r = [] := by simpa using hr
    subst this
    refine ⟨p, ?_⟩
    rw [feedAll_one, StackSt.feed, hb, settle_push hf hi]
  cases hw with
  | int n => exact atom pts hp fun _ _ => rfl
  | real m k => exact atom pts hp fun _ _ => rfl
  | bool b => exact atom pts hp fun _ _ => rfl
  | str s => exact atom pts hp fun _ _ => rfl
  | name n => exact atom pts hp fun _ _ => rfl
  | null hn => exact atom pts hp fun st p => by rw [feedBody_kw st p (by decide), hD.nulls hn]
  | kw n hn => exact atom pts hp fun st p => by rw [feedBody_kw st p (hD.plain n hn).1, (hD.plain n hn).2]
  | ref i g => exact absurd rfl (hr i g)
  | arr hs =>
    obtain ⟨p, q, pos, a, rfl, h1, h2⟩ := feed_inside (pushesSeq hD hs) st _ _ .a (by simp) pts hp
    exact ⟨p, by rw [feedAll_append h2, feedAll_one, close_array, h1, settle_push hf hi]⟩
  | proc hs =>
    obtain ⟨p, q, pos, a, rfl, h1, h2⟩ := feed_inside (pushesSeq hD hs) st _ _ .p (by simp) pts hp
    exact ⟨p, by rw [feedAll_append h2, feedAll_one, close_proc, h1, settle_push hf hi]⟩
  | dict hs hps hd =>
    obtain ⟨p, q, pos, a, rfl, h1, h2⟩ := feed_inside (pushesSeq hD hs) st _ _ .d (by simp) pts hp
    exact ⟨p, by rw [feedAll_append h2, feedAll_one, close_dict st p q pos (h1 ▸ hps) hd, settle_push hf hi]⟩

theorem emitsSeq {h : Hooks} {D : Dialect} (hD : h.Speaks D) (hf : ∀ st, h.flush st = st.flushAll) {os : List Obj} :
    ∀ {ts : List Tok}, WritesSeq D ts os → (∀ i g, .ref i g ∉ os) → ∀ (st : StackSt), Idle st → ∀ (pts : List (Nat × Tok)),
    pts.map Prod.snd = ts →
    ∃ pos, pos.map Prod.snd = os ∧ feedAll h st pts = .ok { st with results := st.results ++ pos } := by
  induction os with
  | nil =>
    intro ts hw hr st hi pts hp
    cases hw
    have : pts = [] := by simpa using hp
    subst this
    exact ⟨[], rfl, by simp [feedAll]⟩
  | cons o os ih =>
    intro ts hw hr st hi pts hp
    cases hw with
    | cons ho hs =>
      obtain ⟨a, b, rfl, ha, hb⟩ := map_snd_append hp
      obtain ⟨p, h1⟩ := emits hD hf ho (fun i g e => hr i g (by simp [e])) st hi a ha
      obtain ⟨pos, h2, h3⟩ := ih hs (fun i g e => hr i g (by simp [e])) { st with results := st.results ++ [(p, o)] }
        ⟨hi.context, hi.curtype, hi.curstack⟩ b hb
      refine ⟨(p, o) :: pos, by rw [List.map_cons, h2], ?_⟩
      rw [feedAll_append h1, h3]
      simp

/-! ### Positions do not matter -/

/-- The same state up to positions. -/
structure Same (s t : StackSt) : Prop where
  context : s.context.map (fun x => (x.2.1, x.2.2.map Prod.snd)) = t.context.map (fun x => (x.2.1, x.2.2.map Prod.snd))
  curtype : s.curtype = t.curtype
  curstack : s.curstack.map Prod.snd = t.curstack.map Prod.snd
  results : s.results.map Prod.snd = t.results.map Prod.snd

inductive SameE : Except PyErr StackSt → Except PyErr StackSt → Prop
  | ok {s t} : Same s t → SameE (.ok s) (.ok t)
  | error (e) : SameE (.error e) (.error e)

structure Hooks.Blind (h : Hooks) : Prop where
  keyword : ∀ s t p q n, Same s t → SameE (h.keyword s p n) (h.keyword t q n)
  flush : ∀ s t, Same s t → Same (h.flush s) (h.flush t)

theorem same_push {s t : StackSt} (h : Same s t) (p q o) : Same (s.push (p, o)) (t.push (q, o)) :=
  ⟨h.context, h.curtype, by simp [StackSt.push, h.curstack], h.results⟩

theorem same_len {s t : StackSt} (h : Same s t) : s.curstack.length = t.curstack.length := by
  have := congrArg List.length h.curstack
  simpa using this

theorem same_pop {s t : StackSt} (h : Same s t) (n) :
    (s.pop n).1.map Prod.snd = (t.pop n).1.map Prod.snd ∧ Same (s.pop n).2 (t.pop n).2 := by
  have hl := same_len h
  refine ⟨?_, h.context, h.curtype, ?_, h.results⟩
  · simp only [StackSt.pop, List.map_drop, h.curstack, hl]
  · simp only [StackSt.pop, List.map_take, h.curstack, hl]

theorem same_doRef {s t : StackSt} (h : Same s t) (p q) : SameE (s.doRef p) (t.doRef q) := by
  obtain ⟨h1, h2⟩ := same_pop h 2
  unfold StackSt.doRef
  rcases h3 : (s.pop 2).1 with _ | ⟨⟨a1, a2⟩, _ | ⟨⟨b1, b2⟩, _ | ⟨x, xs⟩⟩⟩ <;> rw [h3] at h1 <;>
    rcases h4 : (t.pop 2).1 with _ | ⟨⟨c1, c2⟩, _ | ⟨⟨d1, d2⟩, _ | ⟨y, ys⟩⟩⟩ <;> rw [h4] at h1 <;> simp at h1 <;>
    try exact .error _
  obtain ⟨rfl, rfl⟩ := h1
  dsimp only
  cases a2.toInt with
  | error e => exact .error _
  | ok i =>
    cases b2.toInt with
    | error e => exact .error _
    | ok g => exact .ok (same_push h2 p q _)

theorem blind_file : fileHooks.Blind where
  keyword s t p q n h := by
    simp only [fileHooks, fileKeyword]
    split
    · obtain ⟨h1, h2⟩ := same_pop h 1
      exact .ok ⟨h2.context, h2.curtype, h2.curstack, by simp [h2.results, h1]⟩
    · split
      · obtain ⟨h1, h2⟩ := same_pop h 4
        exact .ok ⟨h2.context, h2.curtype, h2.curstack, by simp [h2.results, h1]⟩
      · split
        · exact .ok (same_push h p q _)
        · split
          · exact same_doRef h p q
          · exact .ok (same_push h p q _)
  flush s t h := h

theorem same_flushAll {s t : StackSt} (h : Same s t) : Same s.flushAll t.flushAll :=
  ⟨h.context, h.curtype, rfl, by simp [StackSt.flushAll, h.results, h.curstack]⟩

theorem blind_stream : streamHooks.Blind where
  keyword s t p q n h := by
    simp only [streamHooks]
    split
    · exact same_doRef h p q
    · split
      · exact .ok h
      · exact .ok (same_push h p q _)
  flush s t h := same_flushAll h

theorem blind_content : contentHooks.Blind where
  keyword _ _ p q _ h := .ok (same_push h p q _)
  flush _ _ h := same_flushAll h

theorem same_context_nil {s t : StackSt} (h : Same s t) : s.context = [] ↔ t.context = [] := by
  have := congrArg List.length h.context
  simp only [List.length_map] at this
  rw [← List.length_eq_zero_iff, this, List.length_eq_zero_iff]

theorem same_endType {s t : StackSt} (h : Same s t) (ty) :
    (∃ p q objs s' t', s.endType ty = .ok ((p, objs), s') ∧ t.endType ty = .ok ((q, objs), t') ∧ Same s' t') ∨
    (∃ e, s.endType ty = .error e ∧ t.endType ty = .error e) := by
  obtain ⟨c1, t1, k1, r1⟩ := s
  obtain ⟨c2, t2, k2, r2⟩ := t
  obtain ⟨h1, h2, h3, h4⟩ := h
  dsimp only at h1 h2 h3 h4
  subst h2
  unfold StackSt.endType
  dsimp only
  by_cases hty : t1 = some ty
  · rcases c1 with _ | ⟨⟨p, ty1, s1⟩, c1⟩ <;> rcases c2 with _ | ⟨⟨q, ty2, s2⟩, c2⟩ <;> simp at h1
    · right; simp [hty]
    · left
      rw [h3] 
      simp only [hty, ne_eq, not_true, if_false]
      exact ⟨p, q, _, _, _, rfl, rfl, ⟨h1.2, h1.1.1, h1.1.2, h4⟩⟩
  · right; simp [hty]

theorem same_feed {h : Hooks} (hb : h.Blind) {s t : StackSt} (hs : Same s t) (p q tok) :
    SameE (s.feed h p tok) (t.feed h q tok) := by
  have fin : ∀ x y, SameE x y → SameE (h.settle x) (h.settle y) := by
    intro x y hxy
    cases hxy with
    | error e => exact .error e
    | ok hst =>
      rename_i s t
      simp only [Hooks.settle, same_context_nil hst]
      split
      · exact .ok (hb.flush _ _ hst)
      · exact .ok hst
  have seq : ∀ ty, SameE (s.closeSeq ty) (t.closeSeq ty) := by
    intro ty
    unfold StackSt.closeSeq
    rcases same_endType hs ty with ⟨p', q', objs, s', t', h1, h2, h3⟩ | ⟨e, h1, h2⟩
    · rw [h1, h2]; exact .ok (same_push h3 _ _ _)
    · rw [h1, h2]; dsimp only; split
      · exact .ok hs
      · exact .error e
  have dict : SameE s.closeDict t.closeDict := by
    unfold StackSt.closeDict
    rcases same_endType hs .d with ⟨p', q', objs, s', t', h1, h2, h3⟩ | ⟨e, h1, h2⟩
    · rw [h1, h2]; dsimp only
      split
      · exact .error _
      · split
        · exact .ok (same_push h3 _ _ _)
        · exact .error _
    · rw [h1, h2]; dsimp only; split
      · exact .ok hs
      · exact .error e
  have start : ∀ ty, SameE (.ok (s.startType p ty)) (.ok (t.startType q ty)) := fun ty =>
    .ok ⟨by simp [StackSt.startType, hs.context, hs.curtype, hs.curstack], rfl, rfl, hs.results⟩
  refine fin _ _ ?_
  cases tok with
  | kw n =>
    simp only [StackSt.feedBody]
    repeat' split
    · exact start _
    · exact seq _
    · exact start _
    · exact dict
    · exact start _
    · exact seq _
    · exact hb.keyword _ _ _ _ _ hs
  | _ => exact .ok (same_push hs p q _)

theorem feedRun_same {h : Hooks} (hb : h.Blind) (e : PyErr) (a : List (Nat × Tok)) : ∀ (b : List (Nat × Tok)) (s t : StackSt),
    Same s t → a.map Prod.snd = b.map Prod.snd →
    (feedRun h s e a).1.map Prod.snd = (feedRun h t e b).1.map Prod.snd ∧ (feedRun h s e a).2 = (feedRun h t e b).2 := by
  induction a with
  | nil =>
    intro b s t hs hab
    have : b = [] := by simpa using hab.symm
    subst this
    exact ⟨hs.results, rfl⟩
  | cons x xs ih =>
    intro b s t hs hab
    obtain ⟨p, tk⟩ := x
    obtain ⟨q, ys, rfl, hys⟩ := map_snd_cons (pts := b) (t := tk) (ts := xs.map Prod.snd) (by simpa using hab.symm)
    simp only [feedRun]
    have hf := same_feed hb hs p q tk
    cases h1 : s.feed h p tk with
    | ok s' =>
      rw [h1] at hf
      cases hf2 : t.feed h q tk with
      | ok t' =>
        rw [hf2] at hf
        cases hf with
        | ok hst => exact ih ys s' t' hst hys.symm
      | error e' => rw [hf2] at hf; cases hf
    | error e1 =>
      rw [h1] at hf
      cases hf2 : t.feed h q tk with
      | ok t' => rw [hf2] at hf; cases hf
      | error e' => rw [hf2] at hf; cases hf; exact ⟨hs.results, rfl⟩

/-- The objects read depend only on the token values and the way tokenizing ends. -/
theorem parseObjects_values {h : Hooks} (hf : h.Frame) (hbl : h.Blind) {b : Nat} (hb : 0 < b) (d d' : Bytes) (n : Nat)
    (h1 : (lexRun {} 0 d).1.map Prod.snd = (lexRun {} 0 d').1.map Prod.snd) (h2 : (lexRun {} 0 d).2 = (lexRun {} 0 d').2) :
    parseObjects h b d n = parseObjects h b d' n := by
  rw [parseObjects_take hf hb d n _ _ rfl, parseObjects_take hf hb d' n _ _ rfl]
  obtain ⟨h3, h4⟩ := feedRun_same hbl (lexRun {} 0 d).2 _ _ {} {} ⟨rfl, rfl, rfl, rfl⟩ h1
  rw [h2] at h3 h4
  rw [h2, h3, h4]
  have := congrArg List.length h3
  simp only [List.length_map] at this
  rw [this]

/-! ### Stray brackets -/

def tyOf : Ty → Option Bytes
  | .a => some [91]
  | .d => some [60, 60]
  | .p => some [123]
  | .inline => none

/-- `l` are the opening brackets of the types, innermost first; the outermost type is `none`. -/
def Opened (l : List Bytes) : Option Ty → List (Nat × Option Ty × List (Nat × Obj)) → Prop
  | none, ctx => l = [] ∧ ctx = []
  | some ty, (_, ty', _) :: ctx => ∃ br l', tyOf ty = some br ∧ l = br :: l' ∧ Opened l' ty' ctx
  | some _, [] => False
termination_by _ ctx => ctx.length

/-- Hooks that leave the brackets alone, and whose flushing is idempotent. -/
structure Hooks.Calm (h : Hooks) : Prop where
  keyword : ∀ st p n st', h.keyword st p n = .ok st' → st'.context = st.context ∧ st'.curtype = st.curtype
  flush : ∀ st, (h.flush st).context = st.context ∧ (h.flush st).curtype = st.curtype
  idem : ∀ st, h.flush (h.flush st) = h.flush st

theorem calm_doRef {st st' : StackSt} {p} (h : st.doRef p = .ok st') : st'.context = st.context ∧ st'.curtype = st.curtype := by
  unfold StackSt.doRef at h
  split at h
  · split at h
    · cases h
    · split at h
      · cases h
      · cases h; exact ⟨rfl, rfl⟩
  · cases h

theorem calm_file : fileHooks.Calm where
  keyword st p n st' h := by
    simp only [fileHooks, fileKeyword] at h
    repeat' split at h
    · cases h; exact ⟨rfl, rfl⟩
    · cases h; exact ⟨rfl, rfl⟩
    · cases h; exact ⟨rfl, rfl⟩
    · exact calm_doRef h
    · cases h; exact ⟨rfl, rfl⟩
  flush st := ⟨rfl, rfl⟩
  idem st := rfl

theorem calm_stream : streamHooks.Calm where
  keyword st p n st' h := by
    simp only [streamHooks] at h
    repeat' split at h
    · exact calm_doRef h
    · cases h; exact ⟨rfl, rfl⟩
    · cases h; exact ⟨rfl, rfl⟩
  flush st := ⟨rfl, rfl⟩
  idem st := by simp [streamHooks, StackSt.flushAll]

theorem calm_content : contentHooks.Calm where
  keyword st p n st' h := by
    simp only [contentHooks] at h; cases h; exact ⟨rfl, rfl⟩
  flush st := ⟨rfl, rfl⟩
  idem st := by simp [contentHooks, StackSt.flushAll]

/-- The state between tokens: brackets open as said, and flushed if none are. -/
structure Settled (h : Hooks) (l : List Bytes) (st : StackSt) : Prop where
  opened : Opened l st.curtype st.context
  flushed : st.context = [] → h.flush st = st

theorem settle_ok {h : Hooks} (hc : h.Calm) {l} {st st' : StackSt} (ho : Opened l st.curtype st.context) (hs : h.settle (.ok st) = .ok st') :
    Settled h l st' := by
  unfold Hooks.settle at hs
  dsimp only at hs
  split at hs
  · cases hs
    obtain ⟨h1, h2⟩ := hc.flush st
    exact ⟨by rw [h1, h2]; exact ho, fun _ => hc.idem st⟩
  · cases hs
    rename_i hne
    exact ⟨ho, fun h => absurd h hne⟩

theorem opened_nil_iff {l ty ctx} (h : Opened l ty ctx) : l = [] ↔ ty = none := by
  cases ty with
  | none => unfold Opened at h; simp [h.1]
  | some t =>
    cases ctx with
    | nil => unfold Opened at h; exact h.elim
    | cons x xs =>
      unfold Opened at h
      obtain ⟨br, l', _, h2, _⟩ := h
      simp [h2]

theorem opened_push {l} {st : StackSt} (h : Opened l st.curtype st.context) (p : Nat) {ty : Ty} {br} (hb : tyOf ty = some br) :
    Opened (br :: l) (st.startType p ty).curtype (st.startType p ty).context := by
  unfold StackSt.startType
  dsimp only
  unfold Opened
  exact ⟨br, l, hb, rfl, h⟩

theorem tyOf_inj {a b : Ty} {x} (h : tyOf a = some x) (h' : tyOf b = some x) : a = b := by
  rw [← h'] at h; cases a <;> cases b <;> simp [tyOf] at h ⊢

/-- Closing a bracket of type `ty` (opened by `br`). -/
theorem opened_endType {l : List Bytes} {st : StackSt} (h : Opened l st.curtype st.context) {ty : Ty} {br} (hb : tyOf ty = some br) :
    (l.head? ≠ some br → st.endType ty = .error .psTypeError) ∧
    (l.head? = some br → ∃ q st', st.endType ty = .ok (q, st') ∧ Opened l.tail st'.curtype st'.context) := by
  obtain ⟨ctx, cty, cs, rs⟩ := st
  dsimp only at h
  cases cty with
  | none =>
    unfold Opened at h
    obtain ⟨rfl, rfl⟩ := h
    exact ⟨fun _ => by simp [StackSt.endType], fun h => by simp at h⟩
  | some t =>
    cases ctx with
    | nil => unfold Opened at h; exact h.elim
    | cons x xs =>
      obtain ⟨p, ty', stk⟩ := x
      unfold Opened at h
      obtain ⟨br', l', h1, rfl, h3⟩ := h
      constructor
      · intro hne
        have : t ≠ ty := by
          rintro rfl
          rw [h1] at hb; exact hne (by simpa using hb)
        simp [StackSt.endType, this]
      · intro he
        simp at he
        subst he
        have : t = ty := tyOf_inj h1 hb
        subst this
        exact ⟨(p, cs.map Prod.snd), ⟨xs, ty', stk, rs⟩, by simp [StackSt.endType], h3⟩

/-- One token keeps track of the brackets. -/
theorem feed_settled {h : Hooks} (hc : h.Calm) {l st p tok st'} (hs : Settled h l st) (hf : st.feed h p tok = .ok st') :
    Settled h (openBrackets l [tok]) st' := by
  unfold StackSt.feed at hf
  have ho := hs.opened
  have seq : ∀ ty br, tyOf ty = some br → ∀ s, st.closeSeq ty = .ok s →
      Opened (if l.head? = some br then l.tail else l) s.curtype s.context := by
    intro ty br hb s h1
    obtain ⟨a, b⟩ := opened_endType ho hb
    unfold StackSt.closeSeq at h1
    split
    · rename_i hl
      obtain ⟨q, s', e1, e2⟩ := b hl
      rw [e1] at h1
      cases h1
      exact e2
    · rename_i hl
      rw [a hl] at h1
      cases h1
      exact ho
  have dic : ∀ s, st.closeDict = .ok s → Opened (if l.head? = some [60, 60] then l.tail else l) s.curtype s.context := by
    intro s h1
    obtain ⟨a, b⟩ := opened_endType ho (ty := .d) rfl
    unfold StackSt.closeDict at h1
    split
    · rename_i hl
      obtain ⟨q, s', e1, e2⟩ := b hl
      rw [e1] at h1
      dsimp only at h1
      split at h1
      · cases h1
      · split at h1
        · cases h1; exact e2
        · cases h1
    · rename_i hl
      rw [a hl] at h1
      cases h1
      exact ho
  cases hb : st.feedBody h p tok with
  | error e => rw [hb] at hf; simp [Hooks.settle] at hf
  | ok s =>
    rw [hb] at hf
    refine settle_ok hc ?_ hf
    cases tok with
    | kw n =>
      simp only [StackSt.feedBody] at hb
      unfold openBrackets openBrackets
      by_cases b1 : n = [91]
      · subst b1; simp at hb ⊢; subst hb; exact opened_push ho p rfl
      by_cases b2 : n = [93]
      · subst b2; simp at hb ⊢; have := seq .a _ rfl s hb; split at this <;> simp_all
      by_cases b3 : n = [60, 60]
      · subst b3; simp at hb ⊢; subst hb; exact opened_push ho p rfl
      by_cases b4 : n = [62, 62]
      · subst b4; simp at hb ⊢; have := dic s hb; split at this <;> simp_all
      by_cases b5 : n = [123]
      · subst b5; simp at hb ⊢; subst hb; exact opened_push ho p rfl
      by_cases b6 : n = [125]
      · subst b6; simp at hb ⊢; have := seq .p _ rfl s hb; split at this <;> simp_all
      simp only [b1, b2, b3, b4, b5, b6, if_false, false_or, false_and] at hb ⊢
      obtain ⟨k1, k2⟩ := hc.keyword _ _ _ _ hb
      rw [k1, k2]; exact ho
    | _ =>
      simp only [StackSt.feedBody, Except.ok.injEq] at hb
      subst hb
      simpa [openBrackets, StackSt.push] using ho

theorem openBrackets_append (l a b) : openBrackets l (a ++ b) = openBrackets (openBrackets l a) b := by
  induction a generalizing l with
  | nil => rfl
  | cons x xs ih =>
    cases x with
    | kw n =>
      simp only [List.cons_append]
      rw [openBrackets, openBrackets]
      split
      · exact ih _
      · split
        · exact ih _
        · exact ih _
    | _ => simp only [List.cons_append, openBrackets, ih]

theorem feedAll_settled {h : Hooks} (hc : h.Calm) (a : List (Nat × Tok)) : ∀ {l st st'}, Settled h l st →
    feedAll h st a = .ok st' → Settled h (openBrackets l (a.map Prod.snd)) st' := by
  induction a with
  | nil => intro l st st' hs hf; simp only [feedAll, Except.ok.injEq] at hf; subst hf; exact hs
  | cons x xs ih =>
    intro l st st' hs hf
    obtain ⟨p, t⟩ := x
    simp only [feedAll] at hf
    cases h1 : st.feed h p t with
    | error e => rw [h1] at hf; cases hf
    | ok s =>
      rw [h1] at hf
      rw [List.map_cons, show t :: List.map Prod.snd xs = [t] ++ List.map Prod.snd xs from rfl, openBrackets_append]
      exact ih (feed_settled hc hs h1) hf

theorem stray_feed {h : Hooks} {l st} (hs : Settled h l st) (p : Nat) (c : Bytes) (hst : Stray c l) :
    st.feed h p (.kw c) = .ok st := by
  have fin : h.settle (.ok st) = .ok st := by
    unfold Hooks.settle
    dsimp only
    split
    · rename_i hn; rw [hs.flushed hn]
    · rfl
  unfold StackSt.feed
  rcases hst with ⟨rfl, hl⟩ | ⟨rfl, hl⟩ | ⟨rfl, hl⟩
  · have := (opened_endType hs.opened (ty := .a) rfl).1 hl
    simp [StackSt.feedBody, StackSt.closeSeq, this, fin]
  · have := (opened_endType hs.opened (ty := .d) rfl).1 hl
    simp [StackSt.feedBody, StackSt.closeDict, this, fin]
  · have := (opened_endType hs.opened (ty := .p) rfl).1 hl
    simp [StackSt.feedBody, StackSt.closeSeq, this, fin]

theorem feedRun_error {h : Hooks} {st : StackSt} {a : List (Nat × Tok)} {e'} (ha : feedAll h st a = .error e') (e b) :
    feedRun h st e (a ++ b) = feedRun h st e a := by
  induction a generalizing st with
  | nil => cases ha
  | cons x xs ih =>
    obtain ⟨p, t⟩ := x
    simp only [List.cons_append, feedRun, feedAll] at ha ⊢
    cases hf : st.feed h p t with
    | ok s => rw [hf] at ha; exact ih ha
    | error e => rfl

/-- Feeding a stray bracket changes nothing. -/
theorem feedRun_stray {h : Hooks} (hc : h.Calm) (hfl : h.flush {} = {}) (e : PyErr) (a b : List (Nat × Tok)) (p : Nat) (c : Bytes)
    (hst : Stray c (openBrackets [] (a.map Prod.snd))) :
    feedRun h {} e (a ++ (p, .kw c) :: b) = feedRun h {} e (a ++ b) := by
  cases ha : feedAll h {} a with
  | error e' => rw [feedRun_error ha, feedRun_error ha]
  | ok st =>
    rw [feedRun_append ha, feedRun_append ha]
    have hs := feedAll_settled hc a (l := []) ⟨by simp [Opened], fun _ => hfl⟩ ha
    simp only [feedRun, stray_feed hs p c hst]

end Pdf

import Verif.Proofs.Concat
import Verif.Proofs.TokenSpec
import Verif.Spec.ContentText
/-! The content parser on written content. -/

namespace Pdf
open Spec

/-! ### One stream -/

theorem lexRunK_eof {α : Type} (tag : Nat × Tok → α) (st : LexSt) (p : Nat) (w : Bytes) :
    lexRunK tag (fun _ => ([], .psEOF)) st p w = ((lexRun st p w).1.map tag, (lexRun st p w).2) := by
  induction w generalizing st p with
  | nil => rfl
  | cons c cs ih =>
    rw [lexRunK, lexRun]
    cases lexStep st p c with
    | error e => rfl
    | ok r => obtain ⟨st', toks⟩ := r; simp only [ih]; simp [TStream.pre, Stream.pre]

theorem lexFrom_eof (D : Bytes) (st : LexSt) (p : Nat) (w : Bytes) :
    lexFrom D [] st p w = ((lexRun st p w).1.map (annot D []), (lexRun st p w).2) :=
  lexRunK_eof (annot D []) st p w

theorem text_move {p ts a b} (h : Text p ts a b) (q : Nat) : ∃ ts', ts'.map Prod.snd = ts.map Prod.snd ∧ Text q ts' a b := by
  induction h generalizing q with
  | nil => exact ⟨[], rfl, .nil⟩
  | white hc _ ih => obtain ⟨ts', h1, h2⟩ := ih (q + 1); exact ⟨ts', h1, .white hc h2⟩
  | comment h1 h2 _ ih =>
    rename_i p ts body c a b _
    obtain ⟨ts', h3, h4⟩ := ih (q + body.length + 2); exact ⟨ts', h3, .comment h1 h2 h4⟩
  | tok hs hk _ ih =>
    rename_i p t k ts e a b _
    obtain ⟨ts', h3, h4⟩ := ih (q + e.length)
    exact ⟨(q, t) :: ts', by simp [h3], .tok hs hk h4⟩

theorem lexFrom_text {p ts a b} (h : Text p ts a b) (D : Bytes) :
    lexFrom D [] {} p (a ++ b) = TStream.pre (annot D []) ts (lexFrom D [] {} (p + a.length) b) := by
  rw [lexFrom_eof, run_text h, lexFrom_eof]
  simp [TStream.pre, Stream.pre]

/-! ### What the parser yields -/

inductive Yields : TStream Ann → StackSt → List Obj → PyErr → Prop
  | eof {e st} : st.results = [] → Yields ([], e) st [] e
  | out {s st r rs os e} : st.results = r :: rs → Yields s { st with results := rs } os e → Yields s st (r.2 :: os) e
  | step {t ts e0 st s' st' os e} : st.results = [] → stepA (ts, e0) st t = .ok (s', st') → Yields s' st' os e → Yields (t :: ts, e0) st os e
  | fail {t ts e0 st e} : st.results = [] → stepA (ts, e0) st t = .error e → Yields (t :: ts, e0) st [] e

theorem Yields.next {s st os e} (h : Yields s st os e) :
    match (generalizing := false) os with
    | [] => ∃ N, ∀ fuel, N ≤ fuel → nextobjA fuel s st = .error e
    | o :: os => ∃ s' st', (∃ N, ∀ fuel, N ≤ fuel → nextobjA fuel s st = .ok (o, s', st')) ∧ Yields s' st' os e := by
  induction h with
  | eof h =>
    refine ⟨1, fun fuel hf => ?_⟩
    cases fuel with
    | zero => omega
    | succ f => rw [nextobjA, h]
  | out h hy _ =>
    refine ⟨_, _, ⟨1, fun fuel hf => ?_⟩, hy⟩
    cases fuel with
    | zero => omega
    | succ f => rw [nextobjA.eq_def]; simp only [h]
  | fail hr hs =>
    refine ⟨1, fun fuel hf => ?_⟩
    cases fuel with
    | zero => omega
    | succ f => rw [nextobjA.eq_def]; simp only [hr, hs]
  | step hr hs _ ih =>
    rename_i t ts e0 st s' st' os e _
    have key : ∀ fuel, nextobjA (fuel + 1) (t :: ts, e0) st = nextobjA fuel s' st' := by
      intro f; rw [nextobjA, hr]; simp only [hs]
    cases os with
    | nil =>
      obtain ⟨N, hN⟩ := ih
      refine ⟨N + 1, fun fuel hf => ?_⟩
      cases fuel with
      | zero => omega
      | succ f => rw [key]; exact hN f (by omega)
    | cons o os =>
      obtain ⟨a, b, ⟨N, hN⟩, hy⟩ := ih
      refine ⟨a, b, ⟨N + 1, fun fuel hf => ?_⟩, hy⟩
      cases fuel with
      | zero => omega
      | succ f => rw [key]; exact hN f (by omega)

theorem Yields.objects {s st os e} (h : Yields s st os e) :
    ∃ N, ∀ fuel, N ≤ fuel → ∀ n, objectsA fuel n s st = (os.take n, if os.length < n then some e else none) := by
  induction os generalizing s st with
  | nil =>
    obtain ⟨N, hN⟩ := h.next
    refine ⟨N, fun fuel hf n => ?_⟩
    cases n with
    | zero => rfl
    | succ n => rw [objectsA, hN fuel hf]; simp
  | cons o os ih =>
    obtain ⟨a, b, ⟨N, hN⟩, hy⟩ := h.next
    obtain ⟨M, hM⟩ := ih hy
    refine ⟨max N M, fun fuel hf n => ?_⟩
    cases n with
    | zero => rfl
    | succ n => rw [objectsA, hN fuel (by omega)]; simp [hM fuel (by omega)]

theorem yields_results {s : TStream Ann} {st : StackSt} {r : List (Nat × Obj)} {os : List Obj} {e : PyErr} (h : Yields s (st.pre r) os e) :
    ∃ os', os = r.map Prod.snd ++ os' ∧ Yields s st os' e := by
  induction r generalizing os with
  | nil => exact ⟨os, rfl, h⟩
  | cons x xs ih =>
    cases h with
    | eof h => simp [StackSt.pre] at h
    | step h => simp [StackSt.pre] at h
    | fail h => simp [StackSt.pre] at h
    | out h hy =>
      simp only [StackSt.pre, List.cons_append, List.cons.injEq] at h
      obtain ⟨rfl, rfl⟩ := h
      obtain ⟨os', rfl, h2⟩ := ih hy
      exact ⟨os', rfl, h2⟩

theorem Yields.pre {s : TStream Ann} {st : StackSt} {os : List Obj} {e : PyErr} (h : Yields s st os e) (r : List (Nat × Obj)) :
    Yields s (st.pre r) (r.map Prod.snd ++ os) e := by
  induction r with
  | nil => exact h
  | cons x xs ih => exact .out rfl ih

theorem frame_inline : inlineHooks.Frame where
  keyword st r pos name := by
    simp only [inlineHooks]
    split <;> rfl
  flush st r := by simp [inlineHooks, StackSt.flushAll, StackSt.pre]
  context st := rfl

theorem yields_feed {D : Bytes} {pts : List (Nat × Tok)} (hid : ∀ x ∈ pts, x.2 ≠ .kw kwID) {st st' : StackSt}
    (hf : feedAll inlineHooks st pts = .ok st') {s : TStream Ann} {os : List Obj} {e : PyErr} (h : Yields s st' os e) :
    Yields (TStream.pre (annot D []) pts s) st os e := by
  induction pts generalizing st with
  | nil => simp only [feedAll, Except.ok.injEq] at hf; subst hf; exact h
  | cons x xs ih =>
    obtain ⟨p, t⟩ := x
    simp only [feedAll] at hf
    cases hs : st.feed inlineHooks p t with
    | error e => rw [hs] at hf; cases hf
    | ok s1 =>
      rw [hs] at hf
      have := ih (fun y hy => hid y (List.mem_cons_of_mem _ hy)) hf
      have hst : st = StackSt.pre st.results { st with results := [] } := by simp [StackSt.pre]
      rw [hst, frame_feed frame_inline] at hs
      cases hs0 : StackSt.feed inlineHooks { st with results := [] } p t with
      | error e => rw [hs0] at hs; cases hs
      | ok s0 =>
        rw [hs0] at hs
        simp only [mapOk, Except.ok.injEq] at hs
        subst hs
        obtain ⟨os', rfl, h2⟩ := yields_results this
        have key : Yields (TStream.pre (annot D []) ((p, t) :: xs) s) { st with results := [] } os' e := ?_
        · have := key.pre st.results
          rwa [← hst] at this
        refine .step (t := annot D [] (p, t)) rfl ?_ h2
        refine (if_neg (hid _ List.mem_cons_self)).trans ?_
        simp only [annot, hs0]
        rfl

theorem speaks_inline : inlineHooks.Speaks contentDialect where
  refs h := by simp [contentDialect] at h
  nulls h := by simp [contentDialect] at h
  plain n hn := ⟨hn.1, fun st pos => if_neg (by
    have h2 := hn.2
    simp only [List.mem_cons, not_or] at h2
    exact h2.1)⟩

mutual
theorem writes_noID {ts : List Tok} {o : Obj} (hw : Writes contentDialect ts o) : ∀ t ∈ ts, t ≠ .kw kwID :=
  match hw with
  | .int n => by simp
  | .real m k => by simp
  | .bool b => by simp
  | .str s => by simp
  | .name n => by simp
  | .null hn => by simp [contentDialect] at hn
  | .kw n hn => by
    have h2 := hn.2
    simp only [List.mem_cons, not_or] at h2
    intro t ht
    rw [List.mem_singleton] at ht
    subst ht
    intro he
    exact h2.2.1 (Tok.kw.inj he)
  | .ref i g hr => by simp [contentDialect] at hr
  | .arr hs => by
    have := writesSeq_noID hs
    intro t ht
    simp only [List.cons_append, List.mem_cons, List.mem_append, List.not_mem_nil, or_false] at ht
    rcases ht with rfl | ht | rfl
    · decide
    · exact this t ht
    · decide
  | .proc hs => by
    have := writesSeq_noID hs
    intro t ht
    simp only [List.cons_append, List.mem_cons, List.mem_append, List.not_mem_nil, or_false] at ht
    rcases ht with rfl | ht | rfl
    · decide
    · exact this t ht
    · decide
  | .dict hs _ _ => by
    have := writesSeq_noID hs
    intro t ht
    simp only [List.cons_append, List.mem_cons, List.mem_append, List.not_mem_nil, or_false] at ht
    rcases ht with rfl | ht | rfl
    · decide
    · exact this t ht
    · decide
theorem writesSeq_noID {ts : List Tok} {os : List Obj} (hw : WritesSeq contentDialect ts os) : ∀ t ∈ ts, t ≠ .kw kwID :=
  match hw with
  | .nil => by simp
  | .cons h1 h2 => by
    intro t ht
    rcases List.mem_append.mp ht with h | h
    · exact writes_noID h1 t h
    · exact writesSeq_noID h2 t h
end

mutual
theorem writes_noRef {ts : List Tok} {o : Obj} (hw : Writes contentDialect ts o) : ∀ i g, o ≠ .ref i g :=
  match hw with
  | .int n => by simp
  | .real m k => by simp
  | .bool b => by simp
  | .str s => by simp
  | .name n => by simp
  | .null hn => by simp [contentDialect] at hn
  | .kw n hn => by simp
  | .ref i g hr => by simp [contentDialect] at hr
  | .arr hs => by simp
  | .proc hs => by simp
  | .dict hs _ _ => by simp
theorem writesSeq_noRef {ts : List Tok} {os : List Obj} (hw : WritesSeq contentDialect ts os) : ∀ i g, .ref i g ∉ os :=
  match hw with
  | .nil => by simp
  | .cons h1 h2 => by
    intro i g ht
    rcases List.mem_cons.mp ht with h | h
    · exact writes_noRef h1 i g h.symm
    · exact writesSeq_noRef h2 i g h
end

/-! ### Image data -/

/-- What the value of `i` says about the bytes read. -/
def EIState (i : Nat) (u : Bytes) : Prop :=
  i = 0 ∨ (i = 1 ∧ [69] <:+ u) ∨ (i = 2 ∧ [69, 73] <:+ u) ∨ (i = 3 ∧ ∃ x c, White c ∧ u = x ++ [69, 73, c])

theorem eiNext_zero (c : UInt8) : eiNext kwEI 0 c = if c = 69 then 1 else 0 := rfl
theorem eiNext_one (c : UInt8) : eiNext kwEI 1 c = if c = 73 then 2 else 0 := by
  by_cases h : c = 73
  · subst h; decide
  · simp [eiNext, inlineNext, kwEI, h, Ne.symm h]
theorem eiNext_two (c : UInt8) : eiNext kwEI 2 c = if isSpace c = true then 3 else 0 := by
  simp [eiNext, inlineNext, kwEI]

theorem eiState_next {i : Nat} {u : Bytes} (h : EIState i u) (hi : i ≤ 2) (c : UInt8) : EIState (eiNext kwEI i c) (u ++ [c]) := by
  rcases h with rfl | ⟨rfl, x, rfl⟩ | ⟨rfl, x, rfl⟩ | ⟨rfl, _⟩
  · rw [eiNext_zero]
    split
    · subst c; exact Or.inr (Or.inl ⟨rfl, List.suffix_append _ _⟩)
    · exact Or.inl rfl
  · rw [eiNext_one]
    split
    · subst c; exact Or.inr (Or.inr (Or.inl ⟨rfl, x, by simp⟩))
    · exact Or.inl rfl
  · rw [eiNext_two]
    split
    · rename_i h
      exact Or.inr (Or.inr (Or.inr ⟨rfl, x, c, (white_iff c).mp h, by simp⟩))
    · exact Or.inl rfl
  · omega

theorem NoEI.sub {u v : Bytes} (h : NoEI (u ++ v)) : NoEI u := by
  intro x c y hc he
  exact h x c (y ++ v) hc (by rw [he]; simp)

theorem scan_noEI {d : Bytes} {rest : List Bytes} (v : Bytes) : ∀ (u : Bytes) (i : Nat) (acc : Bytes) (p : Nat) (w : Bytes), EIState i u → i ≤ 2 → NoEI (u ++ v) →
    ∃ j, j ≤ 2 ∧ EIState j (u ++ v) ∧
      scanFrom kwEI d rest i acc p (v ++ w) = scanFrom kwEI d rest j (acc ++ v) (p + v.length) w := by
  induction v with
  | nil => intro u i acc p w h hi _; exact ⟨i, hi, by simpa using h, by simp⟩
  | cons c cs ih =>
    intro u i acc p w h hi hn
    have h1 := eiState_next h hi c
    have h2 : eiNext kwEI i c ≤ 2 := by
      rcases h1 with h1 | ⟨h1, _⟩ | ⟨h1, _⟩ | ⟨_, x, c', hc, he⟩
      · omega
      · omega
      · omega
      · exact absurd (by rw [show u ++ c :: cs = (u ++ [c]) ++ cs by simp, he]; simp) (hn x c' cs hc)
    obtain ⟨j, hj, hs, he⟩ := ih (u ++ [c]) (eiNext kwEI i c) (acc ++ [c]) (p + 1) w h1 h2 (by simpa using hn)
    refine ⟨j, hj, by simpa using hs, ?_⟩
    rw [List.cons_append, scanFrom_cons (by simpa [kwEI] using hi), he]
    simp [Nat.add_assoc, Nat.add_comm 1]

/-- The bytes up to an `EI` that follows neither `E` nor `EI`. -/
theorem scan_found {d : Bytes} {rest : List Bytes} {raw : Bytes} (p : Nat) (w' : UInt8) (b : Bytes) (hn : NoEI raw) (hw : White w')
    (h1 : ¬ [69] <:+ raw) (h2 : ¬ [69, 73] <:+ raw) :
    scanFrom kwEI d rest 0 [] p (raw ++ [69, 73, w'] ++ b) = .ok (raw ++ [69, 73, w'], lexFrom d rest {} (p + raw.length + 3) b) := by
  obtain ⟨j, hj, hs, he⟩ := scan_noEI (d := d) (rest := rest) raw [] 0 [] p ([69, 73, w'] ++ b) (Or.inl rfl) (by omega) hn
  have hj0 : j = 0 := by
    rcases hs with h | ⟨_, h⟩ | ⟨_, h⟩ | ⟨h, _⟩
    · exact h
    · exact absurd h h1
    · exact absurd h h2
    · omega
  subst hj0
  rw [List.append_assoc, he]
  simp only [List.cons_append, List.nil_append]
  rw [scanFrom_cons (by decide), scanFrom_cons (by decide), scanFrom_cons (by decide), scanFrom_found]
  · simp
  · have : isSpace w' = true := (white_iff w').mpr hw
    have e1 : eiNext kwEI 0 69 = 1 := by decide
    have e2 : eiNext kwEI 1 73 = 2 := by decide
    have e3 : eiNext kwEI 2 w' = 3 := by simp [eiNext, inlineNext, kwEI, this]
    rw [e1, e2, e3]
    decide

/-- Nothing is removed before the end of the line at the end. -/
theorem subEol_append {u v : Bytes} (h0 : v ≠ []) (h10 : v ≠ [10]) (h : u.getLast? = some 13 → v.head? = some 10 → atDollar v.tail = false) :
    subEol (u ++ v) = u ++ subEol v := by
  induction u with
  | nil => rfl
  | cons c cs ih =>
    have h' : cs.getLast? = some 13 → v.head? = some 10 → atDollar v.tail = false := by
      intro h1 h2
      refine h ?_ h2
      cases cs with
      | nil => simp at h1
      | cons a as => simpa using h1
    have ih := ih h'
    have hd : ∀ r, atDollar (r ++ v) = false := by
      intro r
      cases r with
      | nil => simp [atDollar, h0, h10]
      | cons a as =>
        simp only [atDollar, List.cons_append, Bool.or_eq_false_iff, decide_eq_false_iff_not, List.cons.injEq, List.append_eq_nil_iff]
        exact ⟨by simp, fun h => h0 h.2.2⟩
    cases cs with
    | nil =>
      rw [List.nil_append] at ih
      cases v with
      | nil => exact absurd rfl h0
      | cons a as =>
        rw [List.cons_append, List.nil_append, subEol, if_neg, if_neg]
        · rfl
        · have := hd []
          rw [List.nil_append] at this
          rw [this]; simp
        · rintro ⟨rfl, rfl, h3⟩
          have := h rfl rfl
          rw [List.tail_cons] at this
          rw [this] at h3
          cases h3
    | cons a as =>
      rw [List.cons_append, List.cons_append, subEol, if_neg, if_neg]
      · rw [← List.cons_append, ih]; rfl
      · have := hd (a :: as)
        rw [List.cons_append] at this
        rw [this]; simp
      · rw [hd as]; simp

theorem getLast_suffix {u : Bytes} {c : UInt8} (h : u.getLast? = some c) : [c] <:+ u := by
  obtain ⟨x, rfl⟩ := List.getLast?_eq_some_iff.mp h
  exact List.suffix_append _ _

theorem subEol_none {u : Bytes} (h1 : u.getLast? ≠ some 13) (h2 : u.getLast? ≠ some 10) : subEol u = u := by
  rcases List.eq_nil_or_concat u with rfl | ⟨x, c, rfl⟩
  · rfl
  · rw [List.concat_eq_append] at *
    simp only [List.getLast?_append, List.getLast?_singleton, Option.some_or, ne_eq, Option.some.injEq] at h1 h2
    rw [subEol_append (by simp) (by simpa using h2) (by simp [h2])]
    simp [subEol, h1, h2]

theorem imageData_raw {raw data : Bytes} (h : ImageData raw data) (hn : NoEI raw) :
    subEol raw = data ∧ ¬ [69] <:+ raw ∧ ¬ [69, 73] <:+ raw := by
  have last : ∀ (u : Bytes) (c : UInt8), c ≠ 69 → c ≠ 73 → ¬ [69] <:+ u ++ [c] ∧ ¬ [69, 73] <:+ u ++ [c] := by
    intro u c h1 h2
    constructor
    · rintro ⟨x, hx⟩
      have := congrArg List.getLast? hx
      simp at this
      exact h1 this.symm
    · rintro ⟨x, hx⟩
      have := congrArg List.getLast? hx
      simp at this
      exact h2 this.symm
  cases h with
  | cr =>
    refine ⟨?_, last _ _ (by decide) (by decide)⟩
    rw [subEol_append (by simp) (by decide) (by simp)]
    simp [subEol]
  | crlf =>
    refine ⟨?_, ?_⟩
    · rw [subEol_append (by simp) (by decide) (by simp)]
      simp [subEol, atDollar]
    · have := last (data ++ [13]) 10 (by decide) (by decide)
      simpa using this
  | lf _ h1 h2 =>
    refine ⟨?_, last _ _ (by decide) (by decide)⟩
    rcases List.eq_nil_or_concat data with rfl | ⟨x, c, rfl⟩
    · rfl
    · rw [List.concat_eq_append] at *
      simp only [List.getLast?_append, List.getLast?_singleton, Option.some_or, ne_eq, Option.some.injEq] at h1 h2
      rw [List.append_assoc, subEol_append (by simp) (by simp) (by simp [h2])]
      simp [subEol, h1, h2]
  | bare _ h1 h2 h3 h4 => exact ⟨subEol_none h1 h2, h3, h4⟩

theorem inlineDict_pairs {os ps} (h : ImagePairs os ps) (ps₀ d₀) (h0 : DictOf ps₀ d₀) :
    ∃ d, inlineDict d₀ os = .ok d ∧ DictOf (ps₀ ++ ps) d := by
  induction h generalizing ps₀ d₀ with
  | nil => exact ⟨d₀, by simp [inlineDict], by simpa using h0⟩
  | cons hk _ ih =>
    rename_i k key v os ps _
    obtain ⟨d, hd, hd2⟩ := ih (ps₀ ++ [(key, v)]) (dictSet d₀ key v) (dictOf_snoc h0 key v)
    refine ⟨d, ?_, by simpa using hd2⟩
    simp only [inlineDict, key_keyOf hk]
    exact hd

theorem imagePairs_length {os ps} (h : ImagePairs os ps) : os.length % 2 = 0 := by
  induction h with
  | nil => rfl
  | cons _ _ ih => simp only [List.length_cons]; omega

/-! ### Written content -/

theorem content_yields {w : Bytes} {os : List Obj} (h : Content w os) : ∀ (D pre : Bytes), D = pre ++ w →
    Yields (lexFrom D [] {} pre.length w) {} os .psEOF := by
  induction h with
  | nil => intro D pre _; exact .eof rfl
  | objects ht hw _ ih =>
    rename_i p pts a b os os' _
    intro D pre hD
    obtain ⟨pts', hp, ht⟩ := text_move ht pre.length
    rw [← hp] at hw
    rw [lexFrom_text ht]
    obtain ⟨pos, h1, h2⟩ := emitsSeq speaks_inline (fun _ => rfl) hw (writesSeq_noRef hw) {} ⟨rfl, rfl, rfl⟩ pts' rfl
    refine yields_feed (fun x hx => writesSeq_noID hw x.2 (List.mem_map_of_mem hx)) h2 ?_
    rw [← h1]
    have := (ih D (pre ++ a) (by rw [hD]; simp)).pre pos
    simpa [StackSt.pre] using this
  | image ht hp hw hps hd hws hraw hn hws' _ ih =>
    rename_i p pts x w raw data w' b ts os ps d os' _
    intro D pre hD
    obtain ⟨pts', hp', ht⟩ := text_move ht pre.length
    rw [hp] at hp'
    rw [lexFrom_text ht]
    obtain ⟨q, r, rfl, hr⟩ := map_snd_cons hp'
    obtain ⟨pos, h1, h2⟩ := pushesSeq speaks_inline hw (StackSt.startType {} q .inline) r (Or.inl (by simp [StackSt.startType])) hr
    have h3 : feedAll inlineHooks {} ((q, .kw [66, 73]) :: r) = .ok (inside {} q .inline pos) := by
      have hb : StackSt.feed inlineHooks {} q (.kw [66, 73]) = .ok (StackSt.startType {} q .inline) := rfl
      rw [feedAll, hb]
      simp only [h2]
      simp [inside, StackSt.startType]
    refine yields_feed ?_ h3 ?_
    · intro y hy
      rcases List.mem_cons.mp hy with rfl | hy
      · exact fun h => absurd (Tok.kw.inj h) (by decide)
      · have := List.mem_map_of_mem (f := Prod.snd) hy
        rw [hr] at this
        exact writesSeq_noID hw _ this
    have hid : Text (pre.length + x.length) [(pre.length + x.length, .kw [73, 68])] [73, 68] ([w] ++ raw ++ [69, 73, w'] ++ b) := by
      have := Text.tok (p := pre.length + x.length) (e := [73, 68]) (t := .kw [73, 68]) (k := .delimiter) (a := []) (b := [w] ++ raw ++ [69, 73, w'] ++ b) (ts := [])
        (.keyword (Or.inl (by decide)) (by decide) (by decide) (by decide))
        ⟨w, raw ++ [69, 73, w'] ++ b, by simp, Or.inl hws, by rintro rfl; revert hws; decide⟩ .nil
      simpa using this
    rw [show [73, 68, w] ++ raw ++ [69, 73, w'] ++ b = [73, 68] ++ ([w] ++ raw ++ [69, 73, w'] ++ b) by simp, lexFrom_text hid]
    obtain ⟨g1, g2, g3⟩ := imageData_raw hraw hn
    obtain ⟨d', e1, e2⟩ := inlineDict_pairs hps [] [] ⟨rfl, by simp⟩
    have hdd : d' = d := dictOf_unique e2 hd
    subst hdd
    have hdrop : D.drop (pre.length + x.length + 3) = raw ++ [69, 73, w'] ++ b := by
      rw [hD, show pre ++ (x ++ ([73, 68, w] ++ raw ++ [69, 73, w'] ++ b)) = (pre ++ x ++ [73, 68, w]) ++ (raw ++ [69, 73, w'] ++ b) by simp]
      exact List.drop_left' (by simp [Nat.add_assoc])
    have hget : getInlineA D [] (pre.length + x.length + 3) = .ok (data, lexFrom D [] {} (pre.length + x.length + 3 + raw.length + 3) b) := by
      unfold getInlineA
      rw [hdrop, scan_found _ w' b hn hws' g2 g3]
      simp [kwEI, g1]
    refine .step (s' := lexFrom D [] {} (pre.length + x.length + 3 + raw.length + 3) b)
      (st' := { results := [(pre.length + x.length + 3, .stream d' data), (pre.length + x.length + 3, .kw kwEI)] }) rfl ?_ ?_
    · refine (if_pos rfl).trans ?_
      unfold idA
      simp only [annot]
      rw [endType_inside]
      simp only [h1, e1, hget]
      rw [if_neg (by rw [imagePairs_length hps]; simp)]
      rfl
    · have := (ih D (pre ++ x ++ [73, 68, w] ++ raw ++ [69, 73, w']) (by rw [hD]; simp)).pre
        [(pre.length + x.length + 3, .stream d' data), (pre.length + x.length + 3, .kw kwEI)]
      rw [show (pre ++ x ++ [73, 68, w] ++ raw ++ [69, 73, w']).length = pre.length + x.length + 3 + raw.length + 3 by simp; omega] at this
      exact this

end Pdf

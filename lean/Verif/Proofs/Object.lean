import Verif.Proofs.StackParser
import Verif.Spec.Object
/-! Feeding the tokens of an object to the stack parser. -/

namespace Pdf
open Spec

/-! ### Dictionaries -/

theorem lastValue_append (k : Key) (ps : List (Key × Obj)) (k' v) :
    lastValue k (ps ++ [(k', v)]) = if k' = k then some v else lastValue k ps := by
  induction ps with
  | nil => simp [lastValue]
  | cons x xs ih =>
    obtain ⟨a, b⟩ := x
    simp only [List.cons_append, lastValue, ih]
    by_cases h : k' = k <;> simp [h]

theorem mem_firsts (ks : List Key) (k) : k ∈ firsts ks ↔ k ∈ ks := by
  induction ks with
  | nil => simp [firsts]
  | cons a as ih =>
    simp only [firsts, List.mem_cons, List.mem_filter, ih, decide_eq_true_eq]
    constructor
    · rintro (h | h)
      · exact Or.inl h
      · exact Or.inr h.1
    · rintro (h | h)
      · exact Or.inl h
      · by_cases hk : k = a
        · exact Or.inl hk
        · exact Or.inr ⟨h, hk⟩

theorem nodup_firsts (ks : List Key) : (firsts ks).Nodup := by
  induction ks with
  | nil => simp [firsts]
  | cons a as ih =>
    simp only [firsts, List.nodup_cons, List.mem_filter, decide_eq_true_eq]
    exact ⟨fun h => h.2 rfl, ih.filter _⟩

theorem firsts_append (ks : List Key) (k) : firsts (ks ++ [k]) = if k ∈ ks then firsts ks else firsts ks ++ [k] := by
  induction ks with
  | nil => simp [firsts]
  | cons a as ih =>
    simp only [List.cons_append, firsts, ih]
    by_cases h : k ∈ as
    · simp [h]
    · by_cases h2 : k = a
      · subst h2
        simp only [h, if_false, List.mem_cons, true_or, if_true, List.cons.injEq, true_and, List.filter_append]
        simp
      · simp [h, h2, List.filter_append]

theorem dictSet_keys (d : List (Key × Obj)) (k v) :
    (dictSet d k v).map Prod.fst = if k ∈ d.map Prod.fst then d.map Prod.fst else d.map Prod.fst ++ [k] := by
  induction d with
  | nil => simp [dictSet]
  | cons x xs ih =>
    obtain ⟨a, b⟩ := x
    unfold dictSet
    by_cases h : a = k
    · subst h; simp
    · have h' : ¬ k = a := fun e => h e.symm
      rw [if_neg h]
      simp only [List.map_cons, ih, List.mem_cons, h', false_or]
      split <;> simp

theorem mem_dictSet (d : List (Key × Obj)) (k v) (hd : (d.map Prod.fst).Nodup) (x) (hx : x ∈ dictSet d k v) :
    x = (k, v) ∨ (x.1 ≠ k ∧ x ∈ d) := by
  induction d with
  | nil => left; simpa [dictSet] using hx
  | cons y ys ih =>
    obtain ⟨a, b⟩ := y
    simp only [List.map_cons, List.nodup_cons] at hd
    unfold dictSet at hx
    by_cases h : a = k
    · subst h
      rw [if_pos rfl] at hx
      rcases List.mem_cons.mp hx with h1 | h1
      · exact Or.inl h1
      · exact Or.inr ⟨fun e => hd.1 (e ▸ List.mem_map_of_mem h1), List.mem_cons_of_mem _ h1⟩
    · rw [if_neg h] at hx
      rcases List.mem_cons.mp hx with h1 | h1
      · subst h1; exact Or.inr ⟨h, List.mem_cons_self ..⟩
      · rcases ih hd.2 h1 with h2 | h2
        · exact Or.inl h2
        · exact Or.inr ⟨h2.1, List.mem_cons_of_mem _ h2.2⟩

theorem dictOf_snoc {ps d} (h : DictOf ps d) (k v) : DictOf (ps ++ [(k, v)]) (dictSet d k v) := by
  obtain ⟨h1, h2⟩ := h
  have hn : (d.map Prod.fst).Nodup := by rw [h1]; exact nodup_firsts _
  refine ⟨?_, fun x hx => ?_⟩
  · rw [dictSet_keys, List.map_append, List.map_cons, List.map_nil, firsts_append, h1]
    simp only [mem_firsts]
  · rw [lastValue_append]
    rcases mem_dictSet d k v hn x hx with rfl | ⟨h3, h4⟩
    · simp
    · rw [if_neg (Ne.symm h3), h2 x h4]

theorem key_keyOf {o : Obj} {k} (h : keyOf o = some k) : o.key = .ok k := by
  cases o <;> simp_all [keyOf, Obj.key]

theorem isNull_iff (o : Obj) : o.isNull = true ↔ o = .null := by
  cases o <;> simp [Obj.isNull]

theorem buildDict_pairs {os ps} (h : Pairs os ps) (ps₀ d₀) (h0 : DictOf ps₀ d₀) :
    ∃ d, buildDict d₀ os = .ok d ∧ DictOf (ps₀ ++ ps) d := by
  induction h generalizing ps₀ d₀ with
  | nil => exact ⟨d₀, by simp [buildDict], by simpa using h0⟩
  | null _ ih => obtain ⟨d, hd⟩ := ih ps₀ d₀ h0; exact ⟨d, by simpa [buildDict, Obj.isNull] using hd⟩
  | cons hv hk _ ih =>
    rename_i k key v os ps _
    obtain ⟨d, hd, hd2⟩ := ih (ps₀ ++ [(key, v)]) (dictSet d₀ key v) (dictOf_snoc h0 key v)
    refine ⟨d, ?_, by simpa using hd2⟩
    have : v.isNull = false := by rw [← Bool.not_eq_true, isNull_iff]; exact hv
    simp only [buildDict, this, key_keyOf hk]
    exact hd

theorem dictOf_unique {ps d d'} (h : DictOf ps d) (h' : DictOf ps d') : d = d' := by
  obtain ⟨h1, h2⟩ := h
  obtain ⟨h3, h4⟩ := h'
  have : ∀ (d d' : List (Key × Obj)), d.map Prod.fst = d'.map Prod.fst → (∀ x ∈ d, lastValue x.1 ps = some x.2) →
      (∀ x ∈ d', lastValue x.1 ps = some x.2) → d = d' := by
    intro d
    induction d with
    | nil => intro d' h _ _; simpa using h.symm
    | cons x xs ih =>
      intro d' h ha hb
      cases d' with
      | nil => simp at h
      | cons y ys =>
        simp only [List.map_cons, List.cons.injEq] at h
        have e1 := ha x (by simp)
        have e2 := hb y (by simp)
        rw [h.1] at e1
        have e3 : x.2 = y.2 := by rw [e1] at e2; simpa using e2
        rw [ih ys h.2 (fun z hz => ha z (by simp [hz])) (fun z hz => hb z (by simp [hz])), Prod.ext h.1 e3]
  exact this d d' (by rw [h1, h3]) h2 h4

theorem pairs_length {os ps} (h : Pairs os ps) : os.length % 2 = 0 := by
  induction h with
  | nil => rfl
  | null _ ih => simp only [List.length_cons]; omega
  | cons _ _ _ ih => simp only [List.length_cons]; omega

/-! ### Feeding an object -/

/-- Feeding tokens one by one. -/
def feedAll (h : Hooks) (st : StackSt) : List (Nat × Tok) → Except PyErr StackSt
  | [] => .ok st
  | (p, t) :: ts =>
    match st.feed h p t with
    | .ok st' => feedAll h st' ts
    | .error e => .error e

theorem feedAll_append {h : Hooks} {st st' : StackSt} {a : List (Nat × Tok)} (ha : feedAll h st a = .ok st') (b) :
    feedAll h st (a ++ b) = feedAll h st' b := by
  induction a generalizing st with
  | nil => simp only [feedAll, Except.ok.injEq] at ha; subst ha; rfl
  | cons x xs ih =>
    obtain ⟨p, t⟩ := x
    simp only [List.cons_append, feedAll] at ha ⊢
    cases hf : st.feed h p t with
    | ok s => rw [hf] at ha; exact ih ha
    | error e => rw [hf] at ha; cases ha

theorem feedRun_append {h : Hooks} {st st' : StackSt} {a : List (Nat × Tok)} (ha : feedAll h st a = .ok st') (e b) :
    feedRun h st e (a ++ b) = feedRun h st' e b := by
  induction a generalizing st with
  | nil => simp only [feedAll, Except.ok.injEq] at ha; subst ha; rfl
  | cons x xs ih =>
    obtain ⟨p, t⟩ := x
    simp only [List.cons_append, feedRun, feedAll] at ha ⊢
    cases hf : st.feed h p t with
    | ok s => rw [hf] at ha; exact ih ha
    | error e => rw [hf] at ha; cases ha

/-- The hooks understand the dialect. -/
structure Hooks.Speaks (h : Hooks) (D : Dialect) : Prop where
  refs : D.refs = true → ∀ st pos, h.keyword st pos [82] = st.doRef pos
  nulls : D.nulls = true → ∀ st pos, h.keyword st pos [110, 117, 108, 108] = .ok (st.push (pos, .null))
  plain : ∀ n, D.plain n → n ∉ brackets ∧ ∀ st pos, h.keyword st pos n = .ok (st.push (pos, .kw n))

theorem speaks_file : fileHooks.Speaks fileDialect where
  refs _ st pos := by simp [fileHooks, fileKeyword, kwXref, kwStartxref, kwEndobj, kwNull, kwR]
  nulls _ st pos := by simp [fileHooks, fileKeyword, kwXref, kwStartxref, kwEndobj, kwNull]
  plain n hn := by
    obtain ⟨h1, h2⟩ := hn
    refine ⟨h1, fun st pos => ?_⟩
    simp only [List.mem_cons, List.not_mem_nil, or_false, not_or] at h2
    obtain ⟨a1, a2, a3, a4, a5, a6⟩ := h2
    simp [fileHooks, fileKeyword, kwXref, kwStartxref, kwEndobj, kwNull, kwR, a1, a2, a3, a4, a5]

theorem speaks_stream : streamHooks.Speaks objstmDialect where
  refs _ st pos := by simp [streamHooks, kwR]
  nulls h := by simp [objstmDialect] at h
  plain n hn := by
    obtain ⟨h1, h2⟩ := hn
    refine ⟨h1, fun st pos => ?_⟩
    simp only [List.mem_cons, List.not_mem_nil, or_false, not_or] at h2
    obtain ⟨a1, a2, a3⟩ := h2
    simp [streamHooks, kwEndobj, kwObj, kwR, a1, a2, a3]

theorem speaks_content : contentHooks.Speaks contentDialect where
  refs h := by simp [contentDialect] at h
  nulls h := by simp [contentDialect] at h
  plain n hn := ⟨hn.1, fun st pos => rfl⟩

/-- No flushing in this state (nor in one with the same context). -/
def Keeps (h : Hooks) (st : StackSt) : Prop := st.context ≠ [] ∨ ∀ s, h.flush s = s

theorem settle_keeps {h : Hooks} {st : StackSt} (hk : Keeps h st) : h.settle (.ok st) = .ok st := by
  unfold Hooks.settle
  rcases hk with hk | hk
  · simp [hk]
  · split
    · rename_i s hs; cases hs; split <;> simp [hk]
    · rename_i hs; cases hs

theorem feed_atom {h : Hooks} {st : StackSt} (hk : Keeps h st) (p : Nat) {t : Tok} {o : Obj}
    (hb : st.feedBody h p t = .ok (st.push (p, o))) : st.feed h p t = .ok (st.push (p, o)) := by
  unfold StackSt.feed
  rw [hb]
  exact settle_keeps (st := st.push (p, o)) hk

theorem not_bracket {n : Bytes} (h : n ∉ brackets) :
    n ≠ [91] ∧ n ≠ [93] ∧ n ≠ [60, 60] ∧ n ≠ [62, 62] ∧ n ≠ [123] ∧ n ≠ [125] := by
  simpa [brackets] using h

theorem feedBody_kw {h : Hooks} (st : StackSt) (p : Nat) {n : Bytes} (hn : n ∉ brackets) :
    st.feedBody h p (.kw n) = h.keyword st p n := by
  obtain ⟨a1, a2, a3, a4, a5, a6⟩ := not_bracket hn
  simp [StackSt.feedBody, a1, a2, a3, a4, a5, a6]

/-- An opening bracket. -/
theorem feed_open {h : Hooks} (st : StackSt) (p : Nat) (n : Bytes) (ty : Ty)
    (hn : (n, ty) ∈ [([91], Ty.a), ([60, 60], Ty.d), ([123], Ty.p)]) :
    st.feed h p (.kw n) = .ok (st.startType p ty) := by
  have : st.feedBody h p (.kw n) = .ok (st.startType p ty) := by
    simp only [List.mem_cons, List.not_mem_nil, or_false, Prod.mk.injEq] at hn
    rcases hn with ⟨rfl, rfl⟩ | ⟨rfl, rfl⟩ | ⟨rfl, rfl⟩ <;> simp [StackSt.feedBody]
  unfold StackSt.feed
  rw [this]
  exact settle_keeps (Or.inl (by simp [StackSt.startType]))

/-- The state inside a bracket, objects `os` read so far. -/
def inside (st : StackSt) (p : Nat) (ty : Ty) (os : List (Nat × Obj)) : StackSt :=
  { st with context := (p, st.curtype, st.curstack) :: st.context, curtype := some ty, curstack := os }

theorem endType_inside (st : StackSt) (p ty os) :
    (inside st p ty os).endType ty = .ok ((p, os.map Prod.snd), st) := by
  simp [StackSt.endType, inside]

theorem close_array {h : Hooks} (st : StackSt) (p q os) :
    (inside st p .a os).feed h q (.kw [93]) = h.settle (.ok (st.push (p, .arr (os.map Prod.snd)))) := by
  simp [StackSt.feed, StackSt.feedBody, StackSt.closeSeq, endType_inside]

theorem close_proc {h : Hooks} (st : StackSt) (p q os) :
    (inside st p .p os).feed h q (.kw [125]) = h.settle (.ok (st.push (p, .arr (os.map Prod.snd)))) := by
  simp [StackSt.feed, StackSt.feedBody, StackSt.closeSeq, endType_inside]

theorem close_dict {h : Hooks} (st : StackSt) (p q os) {ps d} (hp : Pairs (os.map Prod.snd) ps) (hd : DictOf ps d) :
    (inside st p .d os).feed h q (.kw [62, 62]) = h.settle (.ok (st.push (p, .dict d))) := by
  obtain ⟨d', h1, h2⟩ := buildDict_pairs hp [] [] ⟨rfl, by simp⟩
  have : d' = d := dictOf_unique h2 hd
  subst this
  have hl := pairs_length hp
  simp only [List.length_map] at hl
  simp [StackSt.feed, StackSt.feedBody, StackSt.closeDict, endType_inside, h1, hl]

/-- Object `o` from the tokens `ts` onto the stack. -/
def Pushes (h : Hooks) (ts : List Tok) (o : Obj) : Prop :=
  ∀ (st : StackSt) (pts : List (Nat × Tok)), Keeps h st → pts.map Prod.snd = ts → ∃ p, feedAll h st pts = .ok (st.push (p, o))

def PushesSeq (h : Hooks) (ts : List Tok) (os : List Obj) : Prop :=
  ∀ (st : StackSt) (pts : List (Nat × Tok)), Keeps h st → pts.map Prod.snd = ts →
    ∃ pos, pos.map Prod.snd = os ∧ feedAll h st pts = .ok { st with curstack := st.curstack ++ pos }

theorem map_snd_cons {pts : List (Nat × Tok)} {t ts} (h : pts.map Prod.snd = t :: ts) :
    ∃ p r, pts = (p, t) :: r ∧ r.map Prod.snd = ts := by
  cases pts with
  | nil => simp at h
  | cons x xs => obtain ⟨p, u⟩ := x; simp at h; exact ⟨p, xs, by rw [h.1], h.2⟩

theorem map_snd_append {pts : List (Nat × Tok)} {a b} (h : pts.map Prod.snd = a ++ b) :
    ∃ x y, pts = x ++ y ∧ x.map Prod.snd = a ∧ y.map Prod.snd = b := by
  rw [List.map_eq_append_iff] at h
  exact h

theorem pushes_atom {h : Hooks} {t : Tok} {o : Obj}
    (hb : ∀ (st : StackSt) p, st.feedBody h p t = .ok (st.push (p, o))) : Pushes h [t] o := by
  intro st pts hk hp
  obtain ⟨p, r, rfl, hr⟩ := map_snd_cons hp
  have : r = [] := by simpa using hr
  subst this
  exact ⟨p, by simp [feedAll, feed_atom hk p (hb st p)]⟩

/-- Inside of a bracket: the part before the closing bracket. -/
theorem feed_inside {h : Hooks} {ts os} (hs : PushesSeq h ts os) (st : StackSt) (o c : Bytes) (ty : Ty)
    (hn : (o, ty) ∈ [([91], Ty.a), ([60, 60], Ty.d), ([123], Ty.p)]) (pts : List (Nat × Tok))
    (hp : pts.map Prod.snd = .kw o :: ts ++ [.kw c]) :
    ∃ p q pos a, pts = a ++ [(q, .kw c)] ∧ pos.map Prod.snd = os ∧ feedAll h st a = .ok (inside st p ty pos) := by
  obtain ⟨a, b, rfl, ha, hb⟩ := map_snd_append hp
  obtain ⟨q, r, rfl, hr⟩ := map_snd_cons hb
  have : r = [] := by simpa using hr
  subst this
  obtain ⟨p, a', rfl, ha'⟩ := map_snd_cons ha
  obtain ⟨pos, h1, h2⟩ := hs (st.startType p ty) a' (Or.inl (by simp [StackSt.startType])) ha'
  refine ⟨p, q, pos, _, rfl, h1, ?_⟩
  simp only [feedAll, feed_open st p o ty hn, h2]
  simp [StackSt.startType, inside]

theorem feedAll_one {h : Hooks} (st : StackSt) (q t) : feedAll h st [(q, t)] = st.feed h q t := by
  simp only [feedAll]
  cases st.feed h q t <;> rfl

mutual
theorem pushes {h : Hooks} {D : Dialect} (hD : h.Speaks D) {ts : List Tok} {o : Obj} (hw : Writes D ts o) : Pushes h ts o :=
  match hw with
  | .int n => pushes_atom fun _ _ => rfl
  | .real m k => pushes_atom fun _ _ => rfl
  | .bool b => pushes_atom fun _ _ => rfl
  | .str s => pushes_atom fun _ _ => rfl
  | .name n => pushes_atom fun _ _ => rfl
  | .null hn => pushes_atom fun st p => by rw [feedBody_kw st p (by decide), hD.nulls hn]
  | .kw n hn => pushes_atom fun st p => by rw [feedBody_kw st p (hD.plain n hn).1, (hD.plain n hn).2]
  | .ref i g hr => by
    intro st pts hk hp
    obtain ⟨p1, r1, rfl, h1⟩ := map_snd_cons hp
    obtain ⟨p2, r2, rfl, h2⟩ := map_snd_cons h1
    obtain ⟨p3, r3, rfl, h3⟩ := map_snd_cons h2
    have : r3 = [] := by simpa using h3
    subst this
    refine ⟨p3, ?_⟩
    have k1 : Keeps h (st.push (p1, .int i)) := hk
    have k2 : Keeps h ((st.push (p1, .int i)).push (p2, .int g)) := hk
    simp only [feedAll, feed_atom hk p1 (t := .int i) (o := .int i) rfl, feed_atom k1 p2 (t := .int g) (o := .int g) rfl]
    have : ((st.push (p1, .int i)).push (p2, .int g)).feed h p3 (.kw [82]) = .ok (st.push (p3, .ref i g)) := by
      unfold StackSt.feed
      rw [feedBody_kw _ p3 (by decide), hD.refs hr]
      have : ((st.push (p1, .int i)).push (p2, .int g)).doRef p3 = .ok (st.push (p3, .ref i g)) := by
        simp [StackSt.doRef, StackSt.pop, StackSt.push, Obj.toInt]
      rw [this]
      exact settle_keeps (st := st.push (p3, .ref i g)) hk
    rw [this]
  | .arr hs => by
    intro st pts hk hp
    obtain ⟨p, q, pos, a, rfl, h1, h2⟩ := feed_inside (pushesSeq hD hs) st _ _ .a (by simp) pts hp
    refine ⟨p, ?_⟩
    rw [feedAll_append h2, feedAll_one, close_array, h1]
    exact settle_keeps (st := st.push _) hk
  | .proc hs => by
    intro st pts hk hp
    obtain ⟨p, q, pos, a, rfl, h1, h2⟩ := feed_inside (pushesSeq hD hs) st _ _ .p (by simp) pts hp
    refine ⟨p, ?_⟩
    rw [feedAll_append h2, feedAll_one, close_proc, h1]
    exact settle_keeps (st := st.push _) hk
  | .dict hs hps hd => by
    intro st pts hk hp
    obtain ⟨p, q, pos, a, rfl, h1, h2⟩ := feed_inside (pushesSeq hD hs) st _ _ .d (by simp) pts hp
    refine ⟨p, ?_⟩
    rw [feedAll_append h2, feedAll_one, close_dict st p q pos (h1 ▸ hps) hd]
    exact settle_keeps (st := st.push _) hk
theorem pushesSeq {h : Hooks} {D : Dialect} (hD : h.Speaks D) {ts : List Tok} {os : List Obj} (hw : WritesSeq D ts os) :
    PushesSeq h ts os :=
  match hw with
  | .nil => by
    intro st pts hk hp
    have : pts = [] := by simpa using hp
    subst this
    exact ⟨[], rfl, by simp [feedAll]⟩
  | .cons ho hs => by
    intro st pts hk hp
    obtain ⟨a, b, rfl, ha, hb⟩ := map_snd_append hp
    obtain ⟨p, h1⟩ := pushes hD ho st a hk ha
    obtain ⟨pos, h2, h3⟩ := pushesSeq hD hs (st.push (p, _)) b hk hb
    refine ⟨(p, _) :: pos, by rw [List.map_cons, h2], ?_⟩
    rw [feedAll_append h1, h3]
    simp [StackSt.push]
end

end Pdf

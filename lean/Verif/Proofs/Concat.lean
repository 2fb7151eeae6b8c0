import Verif.Proofs.Inline
import Verif.Proofs.LexValues
import Verif.Proofs.Object2
import Mathlib.Data.List.Forall2
/-! Several content streams are read like their concatenation. -/

namespace Pdf

def KwStep (st : LexSt) (p : Nat) (c : UInt8) (o : StepOut) : Prop :=
  (o.1.fn = .keyword → (st.fn = .keyword ∧ o.1.cur = st.cur ++ [c] ∧ o.1.tpos = st.tpos) ∨ (o.1.cur = [c] ∧ o.1.tpos = p)) ∧
  ∀ q, (q, Tok.kw kwID) ∈ o.2 → st.fn = .keyword ∧ st.cur = kwID ∧ q = st.tpos

theorem kw_stepMain (st st0 : LexSt) (p : Nat) (c : UInt8) (h : st.fn = .main) : KwStep st0 p c (stepMain st p c) := by
  unfold stepMain
  split
  · exact ⟨by simp [h], by simp⟩
  · unfold mainDispatch
    dsimp only
    repeat' split
    all_goals simp [KwStep, h, kwID]

theorem kw_toMain (st : LexSt) (p : Nat) (c : UInt8) (t : List (Nat × Tok))
    (ht : ∀ q, (q, Tok.kw kwID) ∈ t → st.fn = .keyword ∧ st.cur = kwID ∧ q = st.tpos) : KwStep st p c (toMain st t p c) := by
  have := kw_stepMain { st with fn := .main } st p c rfl
  refine ⟨this.1, fun q hq => ?_⟩
  simp only [toMain, List.mem_append] at hq
  rcases hq with hq | hq
  · exact ht q hq
  · exact this.2 q hq

theorem kw_stepLiteral (st st0 : LexSt) (p : Nat) (c : UInt8) (h : st.fn = .literal) : KwStep st0 p c (stepLiteral st p c) := by
  unfold stepLiteral
  repeat' split
  · simp [KwStep]
  · have := kw_stepMain { st with fn := .main } st0 p c rfl
    refine ⟨this.1, fun q hq => ?_⟩
    simp only [toMain, List.mem_append] at hq
    rcases hq with hq | hq
    · simp at hq
    · exact this.2 q hq
  · simp [KwStep, h]

theorem kw_stepHexstring (st st0 : LexSt) (p : Nat) (c : UInt8) (h : st.fn = .hexstring) : KwStep st0 p c (stepHexstring st p c) := by
  unfold stepHexstring
  split
  · have := kw_stepMain { st with fn := .main } st0 p c rfl
    refine ⟨this.1, fun q hq => ?_⟩
    simp only [toMain, List.mem_append] at hq
    rcases hq with hq | hq
    · simp [hexTok] at hq
    · exact this.2 q hq
  · simp [KwStep, h]

theorem kw_stepString (st st0 : LexSt) (p : Nat) (c : UInt8) (h : st.fn = .string) : KwStep st0 p c (stepString st c) := by
  unfold stepString
  repeat' split
  all_goals simp [KwStep, h]

theorem kw_lexStep (st : LexSt) (p : Nat) (c : UInt8) {o : StepOut} (h : lexStep st p c = .ok o) : KwStep st p c o := by
  obtain ⟨fn, cur, tpos, paren, hex, oct⟩ := st
  cases fn <;> simp only [lexStep, Except.ok.injEq] at h <;> (try subst h)
  case main => exact kw_stepMain _ _ p c rfl
  case comment =>
    unfold stepComment; split
    · exact kw_toMain _ p c _ (by simp)
    · simp [KwStep]
  case literal => exact kw_stepLiteral _ _ p c rfl
  case literalHex =>
    unfold stepLiteralHex; repeat' split
    · simp [KwStep]
    · exact kw_stepLiteral _ _ p c rfl
    · exact kw_stepLiteral _ _ p c rfl
  case number =>
    unfold stepNumber; repeat' split
    · simp [KwStep]
    · simp [KwStep]
    · refine kw_toMain _ p c _ ?_
      unfold intToks; split <;> simp
  case float =>
    unfold stepFloat; split
    · simp [KwStep]
    · refine kw_toMain _ p c _ ?_
      unfold floatToks; split <;> simp
  case keyword =>
    unfold stepKeyword; split
    · refine kw_toMain _ p c _ fun q hq => ?_
      simp only [List.mem_singleton, Prod.mk.injEq] at hq
      obtain ⟨rfl, hq⟩ := hq
      refine ⟨rfl, ?_, rfl⟩
      unfold keywordTok at hq
      repeat' split at hq
      all_goals simp_all
    · simp [KwStep]
  case string => exact kw_stepString _ _ p c rfl
  case string1 =>
    unfold stepString1 at h; repeat' split at h
    all_goals simp at h
    all_goals subst h
    all_goals first | simp [KwStep]; done | exact kw_stepString _ _ p c rfl
  case wopen =>
    unfold stepWopen; split
    · simp [KwStep, kwID]
    · exact kw_stepHexstring _ _ p c rfl
  case wclose =>
    unfold stepWclose; split
    · simp [KwStep, kwID]
    · exact kw_toMain _ p c _ (by simp)
  case hexstring => exact kw_stepHexstring _ _ p c rfl

/-- A stream that does not end inside or right after a keyword `ID`. -/
def NoCut (s : Bytes) : Prop := ¬ [73] <:+ s ∧ ¬ kwID <:+ s

/-- No cut at the ends of the streams but the last. -/
def NoCuts (streams : List Bytes) : Prop := ∀ s ∈ streams.dropLast, NoCut s

theorem noCuts_tail {d : Bytes} {rest : List Bytes} (h : NoCuts (d :: rest)) : NoCuts rest := by
  intro s hs
  refine h s ?_
  cases rest with
  | nil => simp at hs
  | cons x r => simp [List.dropLast_cons_of_ne_nil, hs]

theorem noCuts_head {d x : Bytes} {rest : List Bytes} (h : NoCuts (d :: x :: rest)) : NoCut d := h d (by simp)

/-- Where a keyword that may become `ID` began. -/
def KwRel (st st' : LexSt) (pre pre' : Bytes) : Prop :=
  st.fn = .keyword → st.cur ≠ [] ∧ (st.cur = [73] ∨ st.cur = kwID →
    ∃ u u', pre = u ++ st.cur ∧ st.tpos = u.length ∧ pre' = u' ++ st.cur ∧ st'.tpos = u'.length)

/-- Tokens of several streams and of their concatenation `D`. -/
def RelAnn (D : Bytes) (t t' : Ann) : Prop :=
  t.1.2 = t'.1.2 ∧ t'.2 = (D, []) ∧
  (t.1.2 = .kw kwID → NoCuts (t.2.1 :: t.2.2) ∧ t.1.1 + 3 ≤ t.2.1.length ∧
    t.2.1.drop (t.1.1 + 3) ++ t.2.2.flatten = D.drop (t'.1.1 + 3) ∧ t'.1.1 + 3 ≤ D.length)

def RelStr (D : Bytes) (s s' : TStream Ann) : Prop := List.Forall₂ (RelAnn D) s.1 s'.1 ∧ s.2 = s'.2

theorem relStr_pre {D : Bytes} {a a' : List Ann} {s s' : TStream Ann} (h : List.Forall₂ (RelAnn D) a a') (hs : RelStr D s s') :
    RelStr D (a ++ s.1, s.2) (a' ++ s'.1, s'.2) := ⟨List.rel_append h hs.1, hs.2⟩

/-- The tokens from `w` on are related, whatever is before it. -/
def FromRel (D : Bytes) (rest : List Bytes) (w : Bytes) : Prop := ∀ (d : Bytes) (st st' : LexSt) (pre pre' : Bytes),
    NoCuts (d :: rest) → d = pre ++ w → D = pre' ++ w ++ rest.flatten → VSim st st' → KwRel st st' pre pre' →
    RelStr D (lexFrom d rest st pre.length w) (lexFrom D [] st' pre'.length (w ++ rest.flatten))

theorem fromRel_cons {D : Bytes} {rest : List Bytes} {c : UInt8} {cs : Bytes} (ih : FromRel D rest cs) : FromRel D rest (c :: cs) := by
  intro d st st' pre pre' hc hd hD hv hk
  have hs := vsim_lexStep st st' pre.length pre'.length c hv
  rw [List.cons_append]
  simp only [FromRel, lexFrom] at ih ⊢
  rw [lexRunK, lexRunK]
  cases ha : lexStep st pre.length c with
  | error e =>
    cases hb : lexStep st' pre'.length c with
    | error e' => rw [ha, hb] at hs; simp only [VSimOut] at hs; subst hs; exact ⟨.nil, rfl⟩
    | ok q => rw [ha, hb] at hs; exact hs.elim
  | ok q =>
    cases hb : lexStep st' pre'.length c with
    | error e' => rw [ha, hb] at hs; exact hs.elim
    | ok q' =>
      have k1 := kw_lexStep _ _ _ ha
      have k2 := kw_lexStep _ _ _ hb
      obtain ⟨s1, t⟩ := q
      obtain ⟨s1', t'⟩ := q'
      rw [ha, hb] at hs
      obtain ⟨h1, h2⟩ := hs
      dsimp only
      have := ih d s1 s1' (pre ++ [c]) (pre' ++ [c]) hc (by rw [hd]; simp) (by rw [hD]; simp) h1 ?_
      · simp only [List.length_append, List.length_singleton] at this
        refine relStr_pre ?_ this
        rw [List.forall₂_map_left_iff, List.forall₂_map_right_iff]
        have hlen := congrArg List.length h2
        simp only [List.length_map] at hlen
        rw [List.forall₂_iff_get]
        refine ⟨hlen.symm, fun i hi hi' => ?_⟩
        have hval : (t.get ⟨i, hi⟩).2 = (t'.get ⟨i, hi'⟩).2 := by
          have := congrArg (fun l => l[i]?) h2
          simp only [List.getElem?_map, List.getElem?_eq_getElem hi, List.getElem?_eq_getElem hi', Option.map_some, Option.some.injEq] at this
          exact this.symm
        refine ⟨hval, rfl, fun he => ?_⟩
        have m1 : ((t.get ⟨i, hi⟩).1, Tok.kw kwID) ∈ t := by
          have := List.get_mem t ⟨i, hi⟩
          rw [← he]; exact this
        have m2 : ((t'.get ⟨i, hi'⟩).1, Tok.kw kwID) ∈ t' := by
          have := List.get_mem t' ⟨i, hi'⟩
          rw [← he]; simp only [annot]; rw [hval]; exact this
        obtain ⟨e1, e2, e3⟩ := k1.2 _ m1
        obtain ⟨e4, e5, e6⟩ := k2.2 _ m2
        obtain ⟨_, e8⟩ := hk e1
        obtain ⟨u, u', g1, g2, g3, g4⟩ := e8 (Or.inr e2)
        simp only [annot]
        have x1 : (t.get ⟨i, hi⟩).1 = u.length := e3.trans g2
        have x2 : (t'.get ⟨i, hi'⟩).1 = u'.length := e6.trans g4
        rw [x1, x2]
        rw [e2] at g1 g3
        have hl : kwID.length = 2 := rfl
        refine ⟨hc, by rw [hd, g1]; simp [hl]; omega, ?_, by rw [hD, g3]; simp [hl]; omega⟩
        rw [hd, hD, g1, g3]
        simp [List.drop_append, kwID]
        rw [List.drop_eq_nil_of_le (by omega), List.drop_eq_nil_of_le (by omega)]
      · intro hf
        rcases k1.1 hf with ⟨a1, a2, a3⟩ | ⟨a2, a3⟩
        · obtain ⟨b1, b2⟩ := hk a1
          dsimp only at a2 a3
          rw [a2]
          refine ⟨by simp, fun hh => ?_⟩
          have hcur : st.cur = [73] := by
            rcases hh with hh | hh
            · have := congrArg List.length hh
              simp at this; exact absurd this b1
            · have : st.cur ++ [c] = [73] ++ [68] := hh
              exact (List.append_inj' this rfl).1
          obtain ⟨u, u', g1, g2, g3, g4⟩ := b2 (Or.inl hcur)
          refine ⟨u, u', by rw [g1]; simp, by rw [a3]; exact g2, by rw [g3]; simp, ?_⟩
          have hf' : s1'.fn = .keyword := h1.fn.trans hf
          rcases k2.1 hf' with ⟨c1, c2, c3⟩ | ⟨c2, c3⟩
          · exact c3.trans g4
          · -- the first byte again: the state would have been `main`
            dsimp only at c2
            have h3 := h1.cur (by rw [hf]; simp)
            rw [c2, a2] at h3
            have := congrArg List.length h3
            simp at this
            exact absurd this.symm (by simpa using b1)
        · dsimp only at a2 a3
          rw [a2]
          refine ⟨by simp, fun hh => ?_⟩
          refine ⟨pre, pre', rfl, a3, rfl, ?_⟩
          have hf' : s1'.fn = .keyword := h1.fn.trans hf
          rcases k2.1 hf' with ⟨c1, c2, c3⟩ | ⟨c2, c3⟩
          · dsimp only at c2 c3
            have h3 := h1.cur (by rw [hf]; simp)
            rw [c2, a2] at h3
            have := congrArg List.length h3
            simp at this
            have hmain : st.fn = .keyword := by rw [← hv.fn]; exact c1
            have h4 := hv.cur (by rw [hmain]; simp)
            rw [this] at h4
            exact absurd h4.symm (hk hmain).1
          · exact c3

theorem lexFrom_rel {D : Bytes} (rest : List Bytes) : ∀ w, FromRel D rest w := by
  induction rest with
  | nil =>
    intro w
    induction w with
    | nil => intro d st st' pre pre' _ _ _ _ _; exact ⟨.nil, rfl⟩
    | cons c cs ih => exact fromRel_cons ih
  | cons x rest ihr =>
    intro w
    induction w with
    | nil =>
      intro d st st' pre pre' hc hd hD hv hk
      rw [List.append_nil] at hd
      subst hd
      have := ihr x x st st' [] pre' (noCuts_tail hc) rfl (by simpa using hD) hv ?_
      · simpa [lexFrom, lexRunK, lexNext] using this
      · intro hf
        obtain ⟨h1, h2⟩ := hk hf
        refine ⟨h1, fun h => ?_⟩
        obtain ⟨u, _, h3, _⟩ := h2 h
        have hn := noCuts_head hc
        rcases h with h | h <;> rw [h] at h3
        · exact absurd ⟨u, h3.symm⟩ hn.1
        · exact absurd ⟨u, h3.symm⟩ hn.2
    | cons c cs ih => exact fromRel_cons ih

theorem vsim_init : VSim {} {} := ⟨rfl, by simp, by simp, by simp, by simp⟩
theorem kwRel_init (pre pre' : Bytes) : KwRel {} {} pre pre' := by intro h; cases h

def RelScan (D : Bytes) : ScanRes → ScanRes → Prop
  | .ok (a, s), .ok (a', s') => a = a' ∧ RelStr D s s'
  | .error e, .error e' => e = e'
  | _, _ => False

def ScanRel (D : Bytes) (rest : List Bytes) (w : Bytes) : Prop := ∀ (d pre pre' : Bytes) (i : Nat) (acc : Bytes),
    NoCuts (d :: rest) → d = pre ++ w → D = pre' ++ w ++ rest.flatten →
    RelScan D (scanFrom kwEI d rest i acc pre.length w) (scanFrom kwEI D [] i acc pre'.length (w ++ rest.flatten))

theorem scanRel_cons {D : Bytes} {rest : List Bytes} {c : UInt8} {cs : Bytes} (ih : ScanRel D rest cs) : ScanRel D rest (c :: cs) := by
  intro d pre pre' i acc hc hd hD
  by_cases hlt : kwEI.length < i
  · rw [scanFrom_found hlt, scanFrom_found hlt]
    exact ⟨rfl, lexFrom_rel rest _ d {} {} pre pre' hc hd hD vsim_init (kwRel_init _ _)⟩
  · rw [List.cons_append, scanFrom_cons (by omega), scanFrom_cons (by omega)]
    have := ih d (pre ++ [c]) (pre' ++ [c]) (eiNext kwEI i c) (acc ++ [c]) hc (by rw [hd]; simp) (by rw [hD]; simp)
    simpa using this

theorem scan_rel {D : Bytes} (rest : List Bytes) : ∀ w, ScanRel D rest w := by
  induction rest with
  | nil =>
    intro w
    induction w with
    | nil =>
      intro d pre pre' i acc hc hd hD
      by_cases hlt : kwEI.length < i
      · rw [scanFrom_found hlt, scanFrom_found hlt]
        exact ⟨rfl, lexFrom_rel [] _ d {} {} pre pre' hc hd hD vsim_init (kwRel_init _ _)⟩
      · rw [scanFrom_nil (by omega), List.flatten_nil, List.append_nil, scanFrom_nil (by omega)]
        rfl
    | cons c cs ih => exact scanRel_cons ih
  | cons x rest ihr =>
    intro w
    induction w with
    | nil =>
      intro d pre pre' i acc hc hd hD
      by_cases hlt : kwEI.length < i
      · rw [scanFrom_found hlt, scanFrom_found hlt]
        exact ⟨rfl, lexFrom_rel (x :: rest) _ d {} {} pre pre' hc hd hD vsim_init (kwRel_init _ _)⟩
      · rw [scanFrom_nil (by omega)]
        have := ihr x x [] pre' i acc (noCuts_tail hc) rfl (by simpa using hD)
        show RelScan D (scanFrom kwEI x rest i acc 0 x) _
        simpa using this
    | cons c cs ih => exact scanRel_cons ih

theorem getInline_rel {D : Bytes} {t t' : Ann} (h : RelAnn D t t') (hk : t.1.2 = .kw kwID) :
    RelScan D (getInlineA t.2.1 t.2.2 (t.1.1 + 3)) (getInlineA t'.2.1 t'.2.2 (t'.1.1 + 3)) := by
  obtain ⟨_, h2, h3⟩ := h
  obtain ⟨h4, h5, h6, h7⟩ := h3 hk
  rw [h2]
  unfold getInlineA
  have := scan_rel (D := D) t.2.2 (t.2.1.drop (t.1.1 + 3)) t.2.1 (t.2.1.take (t.1.1 + 3)) (D.take (t'.1.1 + 3)) 0 []
    h4 (List.take_append_drop _ _).symm (by rw [List.append_assoc, h6, List.take_append_drop])
  rw [List.length_take, Nat.min_eq_left h5, List.length_take, Nat.min_eq_left h7, h6] at this
  dsimp only
  generalize scanFrom kwEI t.2.1 t.2.2 0 [] (t.1.1 + 3) (t.2.1.drop (t.1.1 + 3)) = r at this ⊢
  generalize scanFrom kwEI D [] 0 [] (t'.1.1 + 3) (D.drop (t'.1.1 + 3)) = r' at this ⊢
  rcases r with e | ⟨a, s⟩ <;> rcases r' with e' | ⟨a', s'⟩
  · exact this
  · exact this.elim
  · exact this.elim
  · obtain ⟨rfl, hs⟩ := this
    exact ⟨rfl, hs⟩

def RelStep (D : Bytes) : Except PyErr (TStream Ann × StackSt) → Except PyErr (TStream Ann × StackSt) → Prop
  | .ok (s, st), .ok (s', st') => RelStr D s s' ∧ Same st st'
  | .error e, .error e' => e = e'
  | _, _ => False

theorem idA_rel {D : Bytes} {s s' : TStream Ann} {st st' : StackSt} {t t' : Ann} (hs : RelStr D s s') (hst : Same st st')
    (h : RelAnn D t t') (hk : t.1.2 = .kw kwID) :
    RelStep D (idA s st t.1.1 t.2.1 t.2.2) (idA s' st' t'.1.1 t'.2.1 t'.2.2) := by
  unfold idA
  rcases same_endType hst .inline with ⟨p, q, objs, s1, s2, h1, h2, h3⟩ | ⟨e, h1, h2⟩
  · rw [h1, h2]
    dsimp only
    split
    · exact ⟨hs, h3⟩
    · cases inlineDict [] objs with
      | error e => rfl
      | ok d =>
        dsimp only
        have := getInline_rel h hk
        generalize getInlineA t.2.1 t.2.2 (t.1.1 + 3) = r at this ⊢
        generalize getInlineA t'.2.1 t'.2.2 (t'.1.1 + 3) = r' at this ⊢
        rcases r with e | ⟨a, w⟩ <;> rcases r' with e' | ⟨a', w'⟩
        · exact this
        · exact this.elim
        · exact this.elim
        · obtain ⟨rfl, hw⟩ := this
          exact ⟨hw, same_push (same_push ⟨rfl, rfl, rfl, rfl⟩ _ _ _) _ _ _⟩
  · rw [h1, h2]
    dsimp only
    split
    · exact ⟨hs, hst⟩
    · rfl

theorem blind_inline : inlineHooks.Blind where
  keyword s t p q n h := by
    simp only [inlineHooks]
    split
    · exact .ok ⟨by simp [StackSt.startType, h.context, h.curtype, h.curstack], rfl, rfl, h.results⟩
    · exact .ok (same_push h p q _)
  flush _ _ h := same_flushAll h

theorem stepA_rel {D : Bytes} {s s' : TStream Ann} {st st' : StackSt} {t t' : Ann} (hs : RelStr D s s') (hst : Same st st')
    (h : RelAnn D t t') : RelStep D (stepA s st t) (stepA s' st' t') := by
  unfold stepA
  by_cases hk : t.1.2 = .kw kwID
  · rw [if_pos hk, if_pos (h.1 ▸ hk)]
    have := idA_rel hs hst h hk
    generalize idA s st t.1.1 t.2.1 t.2.2 = r at this ⊢
    generalize idA s' st' t'.1.1 t'.2.1 t'.2.2 = r' at this ⊢
    rcases r with e | ⟨w, a⟩ <;> rcases r' with e' | ⟨w', a'⟩
    · exact this
    · exact this.elim
    · exact this.elim
    · obtain ⟨h1, h2⟩ := this
      simp only [settleA, same_context_nil h2]
      split
      · exact ⟨h1, same_flushAll h2⟩
      · exact ⟨h1, h2⟩
  · rw [if_neg hk, if_neg (h.1 ▸ hk)]
    have := same_feed blind_inline hst t.1.1 t'.1.1 t.1.2
    rw [← h.1]
    generalize st.feed inlineHooks t.1.1 t.1.2 = r at this ⊢
    generalize st'.feed inlineHooks t'.1.1 t.1.2 = r' at this ⊢
    cases this with
    | ok h => exact ⟨hs, h⟩
    | error e => rfl

theorem nextobjA_rel {D : Bytes} (fuel : Nat) {s s' : TStream Ann} {st st' : StackSt} (hs : RelStr D s s') (hst : Same st st') :
    (∃ o w a w' a', nextobjA fuel s st = .ok (o, w, a) ∧ nextobjA fuel s' st' = .ok (o, w', a') ∧ RelStr D w w' ∧ Same a a') ∨
    ∃ e, nextobjA fuel s st = .error e ∧ nextobjA fuel s' st' = .error e := by
  induction fuel generalizing s s' st st' with
  | zero => exact Or.inr ⟨_, rfl, rfl⟩
  | succ fuel ih =>
    unfold nextobjA
    have hr := hst.results
    rcases h1 : st.results with _ | ⟨⟨q, o⟩, rs⟩ <;> rcases h2 : st'.results with _ | ⟨⟨q', o'⟩, rs'⟩ <;> rw [h1, h2] at hr <;> simp at hr
    · dsimp only
      obtain ⟨ts, e⟩ := s
      obtain ⟨ts', e'⟩ := s'
      obtain ⟨h3, h4⟩ := hs
      dsimp only at h3 h4
      subst h4
      cases h3 with
      | nil => exact Or.inr ⟨_, rfl, rfl⟩
      | cons ha hb =>
        rename_i t t' ts ts'
        dsimp only
        have := stepA_rel (s := (ts, e)) (s' := (ts', e)) ⟨hb, rfl⟩ hst ha
        generalize stepA (ts, e) st t = r at this ⊢
        generalize stepA (ts', e) st' t' = r' at this ⊢
        rcases r with e | ⟨w, a⟩ <;> rcases r' with e' | ⟨w', a'⟩
        · simp only [RelStep] at this; subst this; exact Or.inr ⟨_, rfl, rfl⟩
        · exact this.elim
        · exact this.elim
        · exact ih this.1 this.2
    · obtain ⟨rfl, hr⟩ := hr
      exact Or.inl ⟨_, _, _, _, _, rfl, rfl, hs, hst.context, hst.curtype, hst.curstack, hr⟩

theorem objectsA_rel {D : Bytes} (fuel n : Nat) {s s' : TStream Ann} {st st' : StackSt} (hs : RelStr D s s') (hst : Same st st') :
    objectsA fuel n s st = objectsA fuel n s' st' := by
  induction n generalizing s s' st st' with
  | zero => rfl
  | succ n ih =>
    unfold objectsA
    rcases nextobjA_rel fuel hs hst with ⟨o, w, a, w', a', h1, h2, h3, h4⟩ | ⟨e, h1, h2⟩
    · rw [h1, h2]; dsimp only; rw [ih h3 h4]
    · rw [h1, h2]

/-- Several streams are read like their concatenation. -/
theorem contentObjects_flat {b b' : Nat} (hb : 0 < b) (hb' : 0 < b') (fuel n : Nat) (d : Bytes) (rest : List Bytes) (h : NoCuts (d :: rest)) :
    contentObjects b fuel (d :: rest) n = contentObjects b' fuel [(d :: rest).flatten] n := by
  rw [contentObjects_eq hb, contentObjects_eq hb']
  refine objectsA_rel (D := (d :: rest).flatten) fuel n ?_ ⟨rfl, rfl, rfl, rfl⟩
  have := lexFrom_rel (D := (d :: rest).flatten) rest d d {} {} [] [] h rfl (by simp) vsim_init (kwRel_init _ _)
  exact this

end Pdf

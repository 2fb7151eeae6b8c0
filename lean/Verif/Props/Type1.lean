import Verif.Model.Type1
import Verif.Spec.Type1
import Verif.Props.ToUnicode
import Verif.Props.Encoding
/-! C80: the encoding in a Type 1 font program. -/

namespace Pdf
open Spec (T1Text LastNamed ascii brackets)

/-- Every open bracket has been saved: the type at the bottom is none. -/
def WFctx : Option Ty → List (Nat × Option Ty × List (Nat × Obj)) → Prop
  | ty, [] => ty = none
  | _, (_, ty', _) :: c => WFctx ty' c

/-- The stacks fit together. -/
def T1St.WF (s : T1St) : Prop := WFctx s.stack.curtype s.stack.context

theorem closeSeq_wf {st : StackSt} (h : WFctx st.curtype st.context) (t : Ty) :
    ∃ st', st.closeSeq t = .ok st' ∧ WFctx st'.curtype st'.context := by
  unfold StackSt.closeSeq StackSt.endType
  split
  · rename_i hx
    split at hx
    · cases hx
    · split at hx
      · rename_i pos ty stack ctx hc
        cases hx
        refine ⟨_, rfl, ?_⟩
        rw [hc] at h
        exact h
      · cases hx
  · rename_i e hx
    split at hx
    · cases hx
      exact ⟨st, rfl, h⟩
    · split at hx
      · cases hx
      · rename_i hne _ hc
        rw [hc] at h
        simp only [WFctx] at h
        rw [h] at hne
        simp at hne

theorem feed_cmap (st : StackSt) (p : Nat) (t : Tok) : st.feed cmapHooks p t = st.feedBody cmapHooks p t := by
  rw [StackSt.feed, settle_keeps' _]
where
  settle_keeps' (r : Except PyErr StackSt) : cmapHooks.settle r = r := by
    cases r with
    | error e => rfl
    | ok st => simp [Hooks.settle, cmapHooks]

/-- A token that is not `put`, `<<` or `>>` leaves the encoding alone. -/
theorem t1_other {g : PyStr → Option PyStr} {s : T1St} (hs : s.WF) (p : Nat) {t : Tok} (h1 : t ≠ .kw (ascii "put")) (h2 : t ≠ .kw (ascii "<<"))
    (h3 : t ≠ .kw (ascii ">>")) : ∃ s', s.feed g (p, t) = .ok s' ∧ s'.WF ∧ s'.table = s.table := by
  cases t with
  | kw n =>
    have h1' : n ≠ asc "put" := fun h => h1 (by rw [h]; rfl)
    by_cases hb : n ∈ brackets
    · have key : ∃ st, s.stack.feed cmapHooks p (.kw n) = .ok st ∧ WFctx st.curtype st.context := by
        rw [feed_cmap]
        have hb' := hb
        simp only [brackets, List.mem_cons, List.not_mem_nil, or_false] at hb'
        rcases hb' with rfl | rfl | rfl | rfl | rfl | rfl
        · exact ⟨_, rfl, hs⟩
        · exact closeSeq_wf hs .a
        · exact absurd rfl h2
        · exact absurd rfl h3
        · exact ⟨_, rfl, hs⟩
        · exact closeSeq_wf hs .p
      obtain ⟨st, hf, hw⟩ := key
      refine ⟨{ s with stack := st }, ?_, hw, rfl⟩
      rw [T1St.feed]
      exact (if_pos hb).trans (by rw [hf]; rfl)
    · refine ⟨s, ?_, hs, rfl⟩
      rw [T1St.feed]
      refine (if_neg hb).trans ?_
      rw [T1St.keyword, if_neg h1']
  | int n =>
    refine ⟨{ s with stack := s.stack.push (p, .int n) }, ?_, hs, rfl⟩
    show (s.stack.feed cmapHooks p _).map _ = _
    rw [feed_cmap]
    rfl
  | real n e =>
    refine ⟨{ s with stack := s.stack.push (p, .real n e) }, ?_, hs, rfl⟩
    show (s.stack.feed cmapHooks p _).map _ = _
    rw [feed_cmap]
    rfl
  | bool n =>
    refine ⟨{ s with stack := s.stack.push (p, .bool n) }, ?_, hs, rfl⟩
    show (s.stack.feed cmapHooks p _).map _ = _
    rw [feed_cmap]
    rfl
  | str n =>
    refine ⟨{ s with stack := s.stack.push (p, .str n) }, ?_, hs, rfl⟩
    show (s.stack.feed cmapHooks p _).map _ = _
    rw [feed_cmap]
    rfl
  | lit n =>
    refine ⟨{ s with stack := s.stack.push (p, .name n) }, ?_, hs, rfl⟩
    show (s.stack.feed cmapHooks p _).map _ = _
    rw [feed_cmap]
    rfl

/-- What an entry does to the encoding. -/
def t1Put (g : PyStr → Option PyStr) (t : CodeMap) (e : Int × Bytes) : CodeMap :=
  match name2unicode g e.2 with
  | .ok u => dictSet t e.1 u
  | .error _ => t

theorem t1_put {g : PyStr → Option PyStr} {s : T1St} {c : Int} {n : Bytes} (hn : (∃ u, name2unicode g n = .ok u) ∨ name2unicode g n = .error .keyError)
    (p : Nat) {rest : List (Nat × Obj)} {p1 p2 : Nat} (hst : s.stack.curstack = rest ++ [(p1, .int c), (p2, .name n)]) (hs : s.WF) :
    ∃ s', s.feed g (p, .kw (ascii "put")) = .ok s' ∧ s'.WF ∧ s'.table = t1Put g s.table (c, n) := by
  have hf : s.feed g (p, .kw (ascii "put")) = s.keyword g (asc "put") := by
    rw [T1St.feed]; exact if_neg (by decide +kernel)
  have hpop : s.stack.pop 2 = ([(p1, .int c), (p2, .name n)], { s.stack with curstack := rest }) := by
    simp [StackSt.pop, hst]
  rw [hf, T1St.keyword, if_pos rfl, hpop]
  simp only [T1St.keyword.intKey, t1Put]
  rcases hn with ⟨u, hu⟩ | hu
  · rw [hu]; exact ⟨_, rfl, hs, rfl⟩
  · rw [hu]; exact ⟨_, rfl, hs, rfl⟩

theorem t1_push {g : PyStr → Option PyStr} (s : T1St) (p : Nat) (c : Int) :
    s.feed g (p, .int c) = .ok { s with stack := s.stack.push (p, .int c) } := by
  show (s.stack.feed cmapHooks p _).map _ = _
  rw [feed_cmap]
  rfl

theorem t1_push_name {g : PyStr → Option PyStr} (s : T1St) (p : Nat) (n : Bytes) :
    s.feed g (p, .lit n) = .ok { s with stack := s.stack.push (p, .name n) } := by
  show (s.stack.feed cmapHooks p _).map _ = _
  rw [feed_cmap]
  rfl

theorem t1_word {g : PyStr → Option PyStr} (s : T1St) (p : Nat) {n : Bytes} (hb : n ∉ brackets) (hp : n ≠ asc "put") : s.feed g (p, .kw n) = .ok s := by
  rw [T1St.feed]
  refine (if_neg hb).trans ?_
  rw [T1St.keyword, if_neg hp]

theorem utf8_notdef : utf8 (ascii ".notdef") = some (pstr ".notdef") := by decide +kernel

theorem notdef_nothing {g : PyStr → Option PyStr} (hg : g (pstr ".notdef") = none) : name2unicode g (ascii ".notdef") = .error .keyError := by
  rw [name2unicode, utf8_notdef]
  simp only [name2unicodeStr, hg]
  decide +kernel

/-- The font program stores its entries one after the other. -/
theorem t1_fold {g : PyStr → Option PyStr} (hg : g (pstr ".notdef") = none) {ts : List Tok} {es : List (Int × Bytes)} (h : T1Text ts es)
    (hn : ∀ e ∈ es, (∃ u, name2unicode g e.2 = .ok u) ∨ name2unicode g e.2 = .error .keyError)
    {pts : List (Nat × Tok)} (hp : pts.map Prod.snd = ts) {s : T1St} (hs : s.WF) :
    ∃ s', pts.foldlM (T1St.feed g) s = .ok s' ∧ s'.table = es.foldl (t1Put g) s.table := by
  induction h generalizing pts s with
  | nil =>
    have : pts = [] := by simpa using hp
    subst this
    exact ⟨s, rfl, rfl⟩
  | other h1 h2 h3 _ ih =>
    obtain ⟨q, r, rfl, hr⟩ := map_snd_cons hp
    obtain ⟨s1, f1, w1, t1⟩ := t1_other (g := g) hs q h1 h2 h3
    obtain ⟨s', f2, t2⟩ := ih hn hr w1
    exact ⟨s', by rw [foldlM_cons_ok f1]; exact f2, by rw [t2, t1]⟩
  | @entry c n ts es _ ih =>
    obtain ⟨q1, r1, rfl, hr1⟩ := map_snd_cons hp
    obtain ⟨q2, r2, rfl, hr2⟩ := map_snd_cons hr1
    obtain ⟨q3, r3, rfl, hr3⟩ := map_snd_cons hr2
    obtain ⟨s1, f1, w1, t1⟩ := t1_put (g := g) (c := c) (n := n) (s := { s with stack := (s.stack.push (q1, .int c)).push (q2, .name n) }) (hn _ List.mem_cons_self) q3
      (rest := s.stack.curstack) (p1 := q1) (p2 := q2) (by simp [StackSt.push]) hs
    obtain ⟨s', f2, t2⟩ := ih (fun e he => hn e (List.mem_cons_of_mem _ he)) hr3 w1
    refine ⟨s', ?_, by rw [t2, t1]; rfl⟩
    rw [foldlM_cons_ok (t1_push s q1 c), foldlM_cons_ok (t1_push_name _ q2 n), foldlM_cons_ok f1]
    exact f2
  | @fill ts es _ ih =>
    obtain ⟨q0, r0, rfl, hr0⟩ := map_snd_cons hp
    obtain ⟨q1, r1, rfl, hr1⟩ := map_snd_cons hr0
    obtain ⟨q2, r2, rfl, hr2⟩ := map_snd_cons hr1
    obtain ⟨q3, r3, rfl, hr3⟩ := map_snd_cons hr2
    obtain ⟨q4, r4, rfl, hr4⟩ := map_snd_cons hr3
    obtain ⟨q5, r5, rfl, hr5⟩ := map_snd_cons hr4
    obtain ⟨q6, r6, rfl, hr6⟩ := map_snd_cons hr5
    obtain ⟨s0, f0, w0, t0⟩ := t1_other (g := g) hs q0 (t := .kw (ascii "{")) (by decide +kernel) (by decide +kernel) (by decide +kernel)
    obtain ⟨s5, f5, w5, t5⟩ := t1_put (g := g) (c := 1) (n := ascii ".notdef") (s := { s0 with stack := (s0.stack.push (q1, .int 1)).push (q4, .name (ascii ".notdef")) })
      (.inr (notdef_nothing hg)) q5 (rest := s0.stack.curstack) (p1 := q1) (p2 := q4) (by simp [StackSt.push]) w0
    obtain ⟨s6, f6, w6, t6⟩ := t1_other (g := g) w5 q6 (t := .kw (ascii "}")) (by decide +kernel) (by decide +kernel) (by decide +kernel)
    obtain ⟨s', f7, t7⟩ := ih hn hr6 w6
    refine ⟨s', ?_, ?_⟩
    · rw [foldlM_cons_ok f0, foldlM_cons_ok (t1_push s0 q1 1), foldlM_cons_ok (t1_word _ q2 (by decide +kernel) (by decide +kernel)),
        foldlM_cons_ok (t1_word _ q3 (by decide +kernel) (by decide +kernel)), foldlM_cons_ok (t1_push_name _ q4 _), foldlM_cons_ok f5, foldlM_cons_ok f6]
      exact f7
    · rw [t7, t6, t5, t1Put, notdef_nothing hg, t0]

theorem t1Put_get (g : PyStr → Option PyStr) (es : List (Int × Bytes)) (m : CodeMap) (code : Int) :
    (∃ r, r ≠ none ∧ LastNamed (glyphOf g) es code r ∧ dictGet (es.foldl (t1Put g) m) code = r) ∨
      (LastNamed (glyphOf g) es code none ∧ dictGet (es.foldl (t1Put g) m) code = dictGet m code) := by
  induction es generalizing m with
  | nil => exact .inr ⟨.missing (by simp), rfl⟩
  | cons e es ih =>
    obtain ⟨c, n⟩ := e
    rcases ih (t1Put g m (c, n)) with ⟨r, hr, hl, hd⟩ | ⟨hl, hd⟩
    · cases hl with
      | missing => exact absurd rfl hr
      | @given before n' after u heq hu ha => exact .inl ⟨_, hr, .given (before := (c, n) :: before) (by rw [heq]; rfl) hu ha, hd⟩
    · cases hl with
      | missing hm =>
        rw [List.foldl_cons, hd]
        by_cases hc : c = code ∧ ∃ u, glyphOf g n = some u
        · obtain ⟨rfl, u, hu⟩ := hc
          refine .inl ⟨some u, by simp, .given (before := []) rfl hu hm, ?_⟩
          have : name2unicode g n = .ok u := by
            revert hu; unfold glyphOf; split <;> simp_all
          rw [t1Put, this]
          simp [dictGet_dictSet]
        · refine .inr ⟨.missing fun n' hn' => ?_, ?_⟩
          · rcases List.mem_cons.1 hn' with h | h
            · cases h
              by_contra hne
              exact hc ⟨rfl, Option.ne_none_iff_exists'.1 hne⟩
            · exact hm n' h
          · unfold t1Put
            split
            · rename_i u hu
              have : glyphOf g n = some u := by simp only [glyphOf, hu]
              rw [dictGet_dictSet, if_neg fun h => hc ⟨h, u, this⟩]
            · rfl

/-- **C80.** The encoding read from a font program: each code has the character of the last name put there that stands for one. -/
theorem type1_encoding (g : PyStr → Option PyStr) (hg : g (pstr ".notdef") = none) (b : Nat) (hb : 0 < b) (data : Bytes) (pts : List (Nat × Tok))
    (es : List (Int × Bytes)) (ht : Spec.Text 0 pts data []) (h : T1Text (pts.map Prod.snd) es)
    (hn : ∀ e ∈ es, (∃ u, name2unicode g e.2 = .ok u) ∨ name2unicode g e.2 = .error .keyError) :
    ∃ m, t1Encoding g b data = .ok m ∧ ∀ code, LastNamed (glyphOf g) es code (dictGet m code) := by
  obtain ⟨s, h1, h2⟩ := t1_fold hg h hn rfl (s := {}) rfl
  have htok : tokenize b data = (pts, some .psEOF) := tokenize_text b hb data 0 pts (by simpa using ht)
  refine ⟨s.table, by simp only [t1Encoding, htok, h1], fun code => ?_⟩
  rw [h2]
  rcases t1Put_get g es [] code with ⟨r, _, hl, hd⟩ | ⟨hl, hd⟩
  · rw [show ({} : T1St).table = [] from rfl, hd]; exact hl
  · rw [show ({} : T1St).table = [] from rfl, hd]; exact hl

theorem lastNamed_unique {glyph : Bytes → Option PyStr} {es : List (Int × Bytes)} {code : Int} {r r' : Option PyStr} (h : LastNamed glyph es code r)
    (h' : LastNamed glyph es code r') : r = r' := by
  cases h with
  | missing hm =>
    cases h' with
    | missing => rfl
    | given heq hu _ => rw [hm _ (by rw [heq]; simp)] at hu; cases hu
  | @given b n a u heq hu ha =>
    cases h' with
    | missing hm => rw [hm _ (by rw [heq]; simp)] at hu; cases hu
    | @given b' n' a' u' heq' hu' ha' =>
      rw [heq] at heq'
      rcases List.append_eq_append_iff.1 heq' with ⟨c, h1, h2⟩ | ⟨c, h1, h2⟩
      · cases c with
        | nil => simp at h2; rw [← h2.1, hu] at hu'; exact hu'
        | cons x c =>
          simp at h2
          rw [ha n' (by rw [h2.2]; simp)] at hu'; cases hu'
      · cases c with
        | nil => simp at h2; rw [h2.1, hu] at hu'; exact hu'
        | cons x c =>
          simp at h2
          rw [ha' n (by rw [h2.2]; simp)] at hu; cases hu

/-- An example with the filling of the array. -/
theorem type1_example : T1Text
    [.kw (ascii "array"), .int 0, .int 1, .int 255, .kw (ascii "{"), .int 1, .kw (ascii "index"), .kw (ascii "exch"), .lit (ascii ".notdef"), .kw (ascii "put"),
      .kw (ascii "}"), .kw (ascii "for"), .kw (ascii "dup"), .int 65, .lit (ascii "A"), .kw (ascii "put"), .kw (ascii "def")] [(65, ascii "A")] := by
  refine .other (by decide +kernel) (by decide +kernel) (by decide +kernel) ?_
  refine .other (by simp) (by simp) (by simp) ?_
  refine .other (by simp) (by simp) (by simp) ?_
  refine .other (by simp) (by simp) (by simp) ?_
  refine .fill ?_
  refine .other (by decide +kernel) (by decide +kernel) (by decide +kernel) ?_
  refine .other (by decide +kernel) (by decide +kernel) (by decide +kernel) ?_
  refine .entry ?_
  exact .other (by decide +kernel) (by decide +kernel) (by decide +kernel) .nil

/-- Through the parser. -/
theorem type1_run_example : t1Encoding (fun n => if n = pstr "A" then some [65] else none) 4096
    (ascii "/Encoding 256 array 0 1 255 {1 index exch /.notdef put} for dup 7 /A put readonly def ") = .ok [(7, [65])] := by decide +kernel

/-- A font program that uses the standard encoding by its name has no entries: the encoding comes out empty, although the standard encoding
has 149 characters. -/
theorem type1_standard_counterexample (g : PyStr → Option PyStr) : t1Encoding g 4096 (ascii "/Encoding StandardEncoding def ") = .ok [] := by
  have htok : tokenize 4096 (ascii "/Encoding StandardEncoding def ") =
    ([(0, .lit (ascii "Encoding")), (10, .kw (ascii "StandardEncoding")), (27, .kw (ascii "def"))], some .psEOF) := by decide +kernel
  simp only [t1Encoding, htok]
  rw [foldlM_cons_ok (t1_push_name _ _ _), foldlM_cons_ok (t1_word _ _ (by decide +kernel) (by decide +kernel)),
    foldlM_cons_ok (t1_word _ _ (by decide +kernel) (by decide +kernel))]
  rfl

end Pdf

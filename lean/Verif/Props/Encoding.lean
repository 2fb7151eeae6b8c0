import Verif.Spec.Encoding
import Verif.Props.Xref
import Mathlib.Data.List.Induction
import Mathlib.Tactic.Ring
/-! C43, C79: character encodings. -/

namespace Pdf
open Spec (CodeAfter Names TextOf codeMark nameCount)

/-- One step over a `Differences` array: the code for the next name. -/
def codeStep (v : Int) (x : Obj) : Int :=
  match codeMark x with
  | some k => k
  | none => match x with
    | .name _ => v + 1
    | _ => v

theorem codeStep_fold {b : List Obj} (v : Int) (h : ∀ y ∈ b, codeMark y = none) : b.foldl codeStep v = v + nameCount b := by
  induction b generalizing v with
  | nil => simp [nameCount]
  | cons y b ih =>
    have hy := h y (by simp)
    have ih' := fun v => ih v fun z hz => h z (by simp [hz])
    cases y <;> simp_all [codeStep, nameCount, codeMark]
    omega

theorem codeAfter_iff {pre : List Obj} {c : Int} : CodeAfter pre c ↔ c = pre.foldl codeStep 0 := by
  constructor
  · rintro (h | ⟨hx, hb⟩)
    · rw [codeStep_fold 0 h]; simp
    · rename_i a b x k
      rw [List.foldl_append, List.foldl_cons, codeStep_fold _ hb]
      simp [codeStep, hx]
  · rintro rfl
    induction pre using List.reverseRecOn with
    | nil => exact .start (by simp)
    | append_singleton pre x ih =>
      rw [List.foldl_append, List.foldl_cons, List.foldl_nil]
      cases hm : codeMark x with
      | some k =>
        have : codeStep (pre.foldl codeStep 0) x = k + nameCount [] := by simp [codeStep, hm, nameCount]
        rw [this]
        exact .after hm (by simp)
      | none =>
        have key : codeStep (pre.foldl codeStep 0) x = pre.foldl codeStep 0 + nameCount [x] := by
          have := codeStep_fold (b := [x]) (pre.foldl codeStep 0) (by simpa using hm)
          simpa using this
        have cnt : ∀ l : List Obj, nameCount (l ++ [x]) = nameCount l + nameCount [x] := by
          intro l
          induction l with
          | nil => simp [nameCount]
          | cons y l ih => cases y <;> simp [nameCount, ih] <;> omega
        rw [key]
        generalize hc : pre.foldl codeStep 0 = c at *
        cases ih with
        | start h =>
          have := CodeAfter.start (pre := pre ++ [x]) (by
            intro y hy
            rcases List.mem_append.1 hy with h' | h'
            · exact h y h'
            · simp at h'; rw [h']; exact hm)
          rw [cnt] at this
          exact_mod_cast this
        | @after a b y k hy hb =>
          have := CodeAfter.after (a := a) (b := b ++ [x]) hy (by
            intro z hz
            rcases List.mem_append.1 hz with h' | h'
            · exact hb z h'
            · simp at h'; rw [h']; exact hm)
          rw [cnt] at this
          simp only [List.append_assoc, List.cons_append]
          have e : k + ((nameCount b : ℕ) : Int) + (nameCount [x] : ℕ) = k + ((nameCount b + nameCount [x] : ℕ) : Int) := by
            push_cast; ring
          rw [e]; exact this

/-- The character of a glyph name, if any. -/
def glyphOf (glyphs : PyStr → Option PyStr) (n : Bytes) : Option PyStr :=
  match name2unicode glyphs n with
  | .ok u => some u
  | .error _ => none

/-- The loop of `applyDiff` on one element, with the code. -/
def diffStep (glyphs : PyStr → Option PyStr) (s : Int × CodeMap) (x : Obj) : Except PyErr (Int × CodeMap) :=
  match x with
  | .int n => .ok (n, s.2)
  | .bool b => .ok (if b then 1 else 0, s.2)
  | .name n =>
    match name2unicode glyphs n with
    | .ok u => .ok (s.1 + 1, dictSet s.2 s.1 u)
    | .error .keyError => .ok (s.1 + 1, s.2)
    | .error e => .error e
  | _ => .ok s

theorem applyDiff_eq (glyphs : PyStr → Option PyStr) (cid : Int) (t : CodeMap) (l : List Obj) :
    applyDiff glyphs cid t l = (l.foldlM (diffStep glyphs) (cid, t)).map Prod.snd := by
  induction l generalizing cid t with
  | nil => rfl
  | cons x l ih =>
    rw [List.foldlM_cons]
    cases x with
    | name n =>
      simp only [applyDiff, diffStep, bind, Except.bind, ih]
      cases hn : name2unicode glyphs n with
      | ok u => simp
      | error e => cases e <;> simp [Except.map]
    | _ => simp only [applyDiff, diffStep, bind, Except.bind, ih]

theorem names_snoc_other {d : List Obj} {x : Obj} (hx : ∀ n, x ≠ .name n) {pre c n post} :
    Names (d ++ [x]) pre c n post ↔ ∃ post', post = post' ++ [x] ∧ Names d pre c n post' := by
  constructor
  · rintro ⟨h, hc⟩
    rcases List.eq_nil_or_concat post with rfl | ⟨post', y, rfl⟩
    · have := List.append_inj_right' h rfl
      simp at this; exact absurd this (hx n)
    · rw [List.concat_eq_append] at h ⊢
      have h' : d ++ [x] = (pre ++ .name n :: post') ++ [y] := by simpa using h
      have e1 := List.append_inj_left' h' rfl
      have e2 := List.append_inj_right' h' rfl
      simp at e2; subst e2
      exact ⟨post', rfl, e1, hc⟩
  · rintro ⟨post', rfl, h, hc⟩
    exact ⟨by simp [h], hc⟩

theorem names_snoc_name {d : List Obj} {m : Bytes} {pre c n post} :
    Names (d ++ [.name m]) pre c n post ↔
      (post = [] ∧ pre = d ∧ n = m ∧ c = d.foldl codeStep 0) ∨ ∃ post', post = post' ++ [.name m] ∧ Names d pre c n post' := by
  constructor
  · rintro ⟨h, hc⟩
    rcases List.eq_nil_or_concat post with rfl | ⟨post', y, rfl⟩
    · have e1 := List.append_inj_left' h rfl
      have e2 := List.append_inj_right' h rfl
      simp at e2; subst e1
      exact .inl ⟨rfl, rfl, e2.symm, codeAfter_iff.1 hc⟩
    · rw [List.concat_eq_append] at h ⊢
      have h' : d ++ [.name m] = (pre ++ .name n :: post') ++ [y] := by simpa using h
      have e1 := List.append_inj_left' h' rfl
      have e2 := List.append_inj_right' h' rfl
      simp at e2; subst e2
      exact .inr ⟨post', rfl, e1, hc⟩
  · rintro (⟨rfl, rfl, rfl, hc⟩ | ⟨post', rfl, h, hc⟩)
    · exact ⟨rfl, codeAfter_iff.2 hc⟩
    · exact ⟨by simp [h], hc⟩

theorem names_length {d pre c n post} (h : Names d pre c n post) : pre.length < d.length := by
  rw [h.1]; simp

theorem textOf_snoc_other {g : Bytes → Option PyStr} {base d x c r} (hx : ∀ n, x ≠ .name n) (h : TextOf g base d c r) :
    TextOf g base (d ++ [x]) c r := by
  cases h with
  | named hn hg hl =>
    refine .named ((names_snoc_other hx).2 ⟨_, rfl, hn⟩) hg fun p' n' q' h' hlt => ?_
    obtain ⟨q, _, hq⟩ := (names_snoc_other hx).1 h'
    exact hl _ _ _ hq hlt
  | base hl =>
    refine .base fun p' n' q' h' => ?_
    obtain ⟨q, _, hq⟩ := (names_snoc_other hx).1 h'
    exact hl _ _ _ hq

theorem textOf_snoc_miss {g : Bytes → Option PyStr} {base d m c r} (hm : c = d.foldl codeStep 0 → g m = none) (h : TextOf g base d c r) :
    TextOf g base (d ++ [.name m]) c r := by
  cases h with
  | named hn hg hl =>
    refine .named (names_snoc_name.2 (.inr ⟨_, rfl, hn⟩)) hg fun p' n' q' h' hlt => ?_
    rcases names_snoc_name.1 h' with ⟨_, rfl, rfl, hc⟩ | ⟨q, _, hq⟩
    · exact hm hc
    · exact hl _ _ _ hq hlt
  | base hl =>
    refine .base fun p' n' q' h' => ?_
    rcases names_snoc_name.1 h' with ⟨_, rfl, rfl, hc⟩ | ⟨q, _, hq⟩
    · exact hm hc
    · exact hl _ _ _ hq

theorem textOf_snoc_hit {g : Bytes → Option PyStr} {base d m u} (hm : g m = some u) :
    TextOf g base (d ++ [.name m]) (d.foldl codeStep 0) (some u) := by
  refine .named (names_snoc_name.2 (.inl ⟨rfl, rfl, rfl, rfl⟩)) hm fun p' n' q' h' hlt => ?_
  have := names_length h'
  simp at this; omega

/-- The texts that the modified encoding gives are those the `Differences` array describes. -/
theorem applyDiff_text {glyphs : PyStr → Option PyStr} {base t : CodeMap} {d : List Obj} (h : applyDiff glyphs 0 base d = .ok t) (c : Int) :
    TextOf (glyphOf glyphs) (dictGet base) d c (dictGet t c) := by
  rw [applyDiff_eq] at h
  cases hf : d.foldlM (diffStep glyphs) (0, base) with
  | error e => rw [hf] at h; cases h
  | ok s =>
    rw [hf] at h
    cases h
    suffices s.1 = d.foldl codeStep 0 ∧ ∀ c, TextOf (glyphOf glyphs) (dictGet base) d c (dictGet s.2 c) from this.2 c
    clear c
    induction d using List.reverseRecOn generalizing s with
    | nil =>
      cases hf
      refine ⟨rfl, fun c => .base fun pre n post hn => ?_⟩
      have := names_length hn; simp at this
    | append_singleton d x ih =>
      rw [List.foldlM_append] at hf
      cases hd : d.foldlM (diffStep glyphs) (0, base) with
      | error e => rw [hd] at hf; simp [bind, Except.bind] at hf
      | ok s0 =>
        rw [hd] at hf
        obtain ⟨h1, h2⟩ := ih s0 hd
        simp only [List.foldlM_cons, List.foldlM_nil, bind, Except.bind] at hf
        rw [List.foldl_append, List.foldl_cons, List.foldl_nil]
        cases hs : diffStep glyphs s0 x with
        | error e => rw [hs] at hf; cases hf
        | ok s1 =>
          rw [hs] at hf
          cases hf
          cases x with
          | name m =>
            simp only [diffStep] at hs
            have hcode : codeStep (d.foldl codeStep 0) (.name m) = d.foldl codeStep 0 + 1 := by simp [codeStep, codeMark]
            cases hu : name2unicode glyphs m with
            | ok u =>
              rw [hu] at hs; cases hs
              refine ⟨by rw [hcode, ← h1], fun c => ?_⟩
              show TextOf _ _ _ c (dictGet (dictSet s0.2 s0.1 u) c)
              rw [dictGet_dictSet]
              by_cases hc : s0.1 = c
              · rw [if_pos hc, ← hc, h1]
                exact textOf_snoc_hit (by simp [glyphOf, hu])
              · rw [if_neg hc]
                exact textOf_snoc_miss (fun h => absurd (h.trans h1.symm).symm hc) (h2 c)
            | error e =>
              rw [hu] at hs
              have hs' : s = (s0.1 + 1, s0.2) := by
                cases e <;> first | (cases hs; rfl) | cases hs
              subst hs'
              exact ⟨by rw [hcode, ← h1], fun c => textOf_snoc_miss (fun _ => by simp [glyphOf, hu]) (h2 c)⟩
          | _ =>
            cases hs
            exact ⟨by simp [codeStep, codeMark, h1], fun c => textOf_snoc_other (by simp) (h2 c)⟩

/-- The array describes at most one text for a code. -/
theorem textOf_unique {g : Bytes → Option PyStr} {base d c r r'} (h : TextOf g base d c r) (h' : TextOf g base d c r') : r = r' := by
  cases h with
  | named hn hg hl =>
    cases h' with
    | named hn' hg' hl' =>
      rename_i pre n post u pre' n' post' u'
      rcases Nat.lt_trichotomy pre.length pre'.length with hlt | heq | hlt
      · rw [hl _ _ _ hn' hlt] at hg'; cases hg'
      · have := hn.1.symm.trans hn'.1
        have e := List.append_inj this heq
        have := e.2
        simp at this
        rw [← this.1, hg] at hg'
        exact hg'
      · rw [hl' _ _ _ hn hlt] at hg; cases hg
    | base hl' => rw [hl' _ _ _ hn] at hg; cases hg
  | base hl =>
    cases h' with
    | named hn' hg' hl' => rw [hl _ _ _ hn'] at hg'; cases hg'
    | base hl' => rfl

theorem foldlM_diffStep_ok {glyphs : PyStr → Option PyStr} {d : List Obj}
    (hd : ∀ n, Obj.name n ∈ d → (∃ u, name2unicode glyphs n = .ok u) ∨ name2unicode glyphs n = .error .keyError) (s : Int × CodeMap) :
    ∃ s', d.foldlM (diffStep glyphs) s = .ok s' := by
  induction d generalizing s with
  | nil => exact ⟨s, rfl⟩
  | cons x d ih =>
    rw [List.foldlM_cons]
    have ih' := ih fun n hn => hd n (by simp [hn])
    have : ∃ s1, diffStep glyphs s x = .ok s1 := by
      cases x with
      | name n =>
        rcases hd n (by simp) with ⟨u, hu⟩ | hu <;> simp [diffStep, hu]
      | _ => exact ⟨_, rfl⟩
    obtain ⟨s1, h1⟩ := this
    rw [h1]
    exact ih' s1

theorem getEncoding_heap (glyphs : PyStr → Option PyStr) (h : EncHeap) (name : Bytes) (d : List Obj) :
    h <+: (getEncoding glyphs h name d).2 := by
  unfold getEncoding
  split
  · exact List.prefix_refl _
  · split
    · exact List.prefix_append _ _
    · exact List.prefix_refl _

theorem encCalls_heap (glyphs : PyStr → Option PyStr) (calls : List (Bytes × List Obj)) (h : EncHeap) : h <+: encCalls glyphs h calls := by
  induction calls generalizing h with
  | nil => exact List.prefix_refl _
  | cons c calls ih => exact (getEncoding_heap glyphs h c.1 c.2).trans (ih _)

theorem prefix_getD {α : Type} {l l' : List α} {d : α} (h : l <+: l') {i : Nat} (hi : i < l.length) : l'.getD i d = l.getD i d := by
  obtain ⟨r, rfl⟩ := h
  simp [List.getD, List.getElem?_append_left hi]

theorem encodingAddr_lt (name : Bytes) : encodingAddr name < 4 := by
  unfold encodingAddr; split_ifs <;> omega

theorem initial_length {glyphs : PyStr → Option PyStr} {h0 : EncHeap} (h : EncHeap.initial glyphs = .ok h0) : h0.length = 4 := by
  unfold EncHeap.initial at h
  split at h <;> cases h
  rfl

/-- C43, but for names that stand for no character. Whatever calls of `get_encoding` came before and come after, the dictionary that a call returns gives every code the text of the
last name for the code in the `Differences` array that stands for a character, else the text that the built-in table has. The built-in
tables never change. -/
theorem encoding_differences_partial {glyphs : PyStr → Option PyStr} {h0 : EncHeap} (h0ok : EncHeap.initial glyphs = .ok h0)
    (before after : List (Bytes × List Obj)) (name : Bytes) (d : List Obj) :
    let h := encCalls glyphs h0 before
    let r := getEncoding glyphs h name d
    let h' := encCalls glyphs r.2 after
    (∀ i < 4, h'.getD i [] = h0.getD i []) ∧
    (∀ a, r.1 = .ok a → ∀ c, TextOf (glyphOf glyphs) (dictGet (h0.getD (encodingAddr name) [])) d c (dictGet (h'.getD a []) c)) ∧
    ((∃ a, r.1 = .ok a) ↔ ∀ n, Obj.name n ∈ d → (∃ u, name2unicode glyphs n = .ok u) ∨ name2unicode glyphs n = .error .keyError) := by
  intro h r h'
  have hlen := initial_length h0ok
  have p1 : h0 <+: h := encCalls_heap glyphs before h0
  have p2 : h <+: r.2 := getEncoding_heap glyphs h name d
  have p3 : r.2 <+: h' := encCalls_heap glyphs after r.2
  have hbase : h.getD (encodingAddr name) [] = h0.getD (encodingAddr name) [] :=
    prefix_getD p1 (by rw [hlen]; exact encodingAddr_lt name)
  refine ⟨fun i hi => prefix_getD (p1.trans (p2.trans p3)) (by omega), fun a ha c => ?_, ?_⟩
  · by_cases hd : d = []
    · subst hd
      have : r = (.ok (encodingAddr name), h) := by simp [r, getEncoding]
      rw [this] at ha
      cases ha
      rw [prefix_getD (p1.trans (p2.trans p3)) (by rw [hlen]; exact encodingAddr_lt name)]
      exact .base fun pre n post hn => by have := names_length hn; simp at this
    · cases ht : applyDiff glyphs 0 (h.getD (encodingAddr name) []) d with
      | error e =>
        have : r = (.error e, h) := by simp only [r, getEncoding, if_neg hd, ht]
        rw [this] at ha; cases ha
      | ok t =>
        have hr : r = (.ok h.length, h ++ [t]) := by simp only [r, getEncoding, if_neg hd, ht]
        rw [hr] at ha p3
        cases ha
        rw [prefix_getD p3 (by simp)]
        have : (h ++ [t]).getD h.length [] = t := by simp [List.getD]
        rw [this]
        rw [hbase] at ht
        exact applyDiff_text ht c
  · constructor
    · rintro ⟨a, ha⟩ n hn
      by_cases hd : d = []
      · subst hd; cases hn
      · cases ht : applyDiff glyphs 0 (h.getD (encodingAddr name) []) d with
        | error e =>
          have : r = (.error e, h) := by simp only [r, getEncoding, if_neg hd, ht]
          rw [this] at ha; cases ha
        | ok t =>
          clear ha p3 p2 h' r hbase
          generalize h.getD (encodingAddr name) [] = t0 at ht
          rw [applyDiff_eq] at ht
          generalize (0 : Int) = v at ht
          clear hd
          induction d generalizing v t0 with
          | nil => cases hn
          | cons x d ih =>
            rw [List.foldlM_cons] at ht
            cases hs : diffStep glyphs (v, t0) x with
            | error e => rw [hs] at ht; simp [bind, Except.bind, Except.map] at ht
            | ok s1 =>
              rw [hs] at ht
              rcases List.mem_cons.1 hn with h1 | h1
              · subst h1
                simp only [diffStep] at hs
                cases hu : name2unicode glyphs n with
                | ok u => exact .inl ⟨u, rfl⟩
                | error e =>
                  right
                  rw [hu] at hs
                  cases e <;> first | rfl | cases hs
              · exact ih h1 s1.2 s1.1 ht
    · intro hd
      by_cases hnil : d = []
      · exact ⟨encodingAddr name, by simp [r, getEncoding, hnil]⟩
      · obtain ⟨s, hs⟩ := foldlM_diffStep_ok hd ((0 : Int), h.getD (encodingAddr name) [])
        refine ⟨h.length, ?_⟩
        have : applyDiff glyphs 0 (h.getD (encodingAddr name) []) d = .ok s.2 := by rw [applyDiff_eq, hs]; rfl
        simp only [r, getEncoding, if_neg hnil, this]

/-- The hypotheses of `encoding_differences_partial` hold for a real array: `[65 /alpha /x9 /beta 66 /gamma]` with a glyph list that knows the
Greek names; `/x9` stands for the character 9, and the last entry for 66 counts. -/
theorem encoding_example : applyDiff (fun n => if n = pstr "alpha" then some [945] else if n = pstr "beta" then some [946] else
      if n = pstr "gamma" then some [947] else none) 0 [(65, [65]), (66, [66]), (70, [70])]
    [.int 65, .name (pstr "alpha" |>.map UInt8.ofNat), .name (pstr "x9" |>.map UInt8.ofNat), .name (pstr "beta" |>.map UInt8.ofNat), .int 66,
      .name (pstr "gamma" |>.map UInt8.ofNat), .name (pstr "nothing" |>.map UInt8.ofNat)] =
    .ok [(65, [945]), (66, [947]), (70, [70]), (67, [946])] := by decide +kernel

/-- Missing for C43: an entry for code 65 whose name stands for no character (`/.notdef`) should leave the code without a text; it
keeps the text of the base encoding, here `A`. -/
theorem encoding_unknown_glyph_counterexample : applyDiff (fun _ => none) 0 [(65, [65])] [.int 65, .name (pstr ".notdef" |>.map UInt8.ofNat)] =
    .ok [(65, [65])] := by decide +kernel

/-- Missing for C43: the name `uni0041`, which is not in the glyph list, stands for the letter `A` (Adobe glyph list specification); its digits
are taken for a decimal number, and it becomes the character `)`. -/
theorem encoding_uni_name_counterexample (glyphs : PyStr → Option PyStr) (h : glyphs (pstr "uni0041") = none) :
    name2unicodeStr glyphs (pstr "uni0041") = .ok (pstr ")") := by
  unfold name2unicodeStr
  rw [h]
  decide +kernel

end Pdf

import Verif.Spec.SaveAll
import Verif.Props.SaveImage
import Verif.Props.DrawingFile
import Verif.Props.Text
import Verif.Props.PackedWrite
/-! C116: the images that were put in a document come out of it. -/

namespace Pdf
open Spec

/-! ### Names -/

theorem digits_end {l l' r r' : List Nat} {c c' : Nat} (h1 : ∀ x ∈ l, 48 ≤ x ∧ x ≤ 57) (h2 : ∀ x ∈ l', 48 ≤ x ∧ x ≤ 57) (hc : ¬ (48 ≤ c ∧ c ≤ 57))
    (hc' : ¬ (48 ≤ c' ∧ c' ≤ 57)) (h : l ++ c :: r = l' ++ c' :: r') : l = l' ∧ r = r' := by
  induction l generalizing l' with
  | nil =>
    cases l' with
    | nil => simp at h; exact ⟨rfl, h.2⟩
    | cons y l' =>
      simp at h
      exact absurd (h.1 ▸ h2 y (by simp)) hc
  | cons x l ih =>
    cases l' with
    | nil =>
      simp at h
      exact absurd (h.1 ▸ h1 x (by simp)) hc'
    | cons y l' =>
      simp at h
      obtain ⟨rfl, h⟩ := h
      obtain ⟨rfl, hr⟩ := ih (fun x hx => h1 x (by simp [hx])) (fun x hx => h2 x (by simp [hx])) h
      exact ⟨rfl, hr⟩

theorem numText_range (n : Nat) : ∀ x ∈ numText n, 48 ≤ x ∧ x ≤ 57 := by
  intro x hx
  obtain ⟨d, hd, rfl⟩ := List.mem_map.1 hx
  exact (decimal_facts n).2.1 d hd

theorem numText_inj {n m : Nat} (h : numText n = numText m) : n = m := by
  have : decimal n = decimal m := List.map_injective_iff.2 (fun _ _ h => UInt8.toNat_inj.1 h) h
  rw [← (decimal_facts n).2.2, ← (decimal_facts m).2.2, this]

theorem imageFile_inj {base : PyStr} {n j n' j' : Nat} {r r' : PyStr} (h : imageFile base n j ++ 0x2e :: r = imageFile base n' j' ++ 0x2e :: r') : n = n' ∧ j = j' := by
  unfold imageFile at h
  simp only [List.append_assoc] at h
  have h := List.append_cancel_left (List.append_cancel_left h)
  obtain ⟨h1, h2⟩ := digits_end (c := 0x69) (c' := 0x69) (numText_range n) (numText_range n') (by omega) (by omega) h
  obtain ⟨h3, _⟩ := digits_end (c := 0x2e) (c' := 0x2e) (numText_range j) (numText_range j') (by omega) (by omega) h2
  exact ⟨numText_inj h1, numText_inj h3⟩

theorem inDir_eq {d f path : PyStr} (h : InDir d f path) : path = if d = [] ∨ d.getLast? = some 0x2f then d ++ f else d ++ [0x2f] ++ f := by
  cases h with
  | here => simp
  | @slash d f => rw [if_pos (.inr (by simp [pstr]))]
  | plain h1 h2 =>
    rw [if_neg]
    · rfl
    · rintro (h | h)
      · exact h1 h
      · obtain ⟨ys, hys⟩ := List.getLast?_eq_some_iff.1 h
        exact h2 ⟨ys, hys.symm⟩

theorem inDir_inj {d f f' path : PyStr} (h : InDir d f path) (h' : InDir d f' path) : f = f' := by
  have h := (inDir_eq h).symm.trans (inDir_eq h')
  split at h
  · exact List.append_cancel_left h
  · exact List.append_cancel_left h

theorem inDir_exists (d f : PyStr) : ∃ path, InDir d f path := by
  by_cases h : d = []
  · subst h; exact ⟨_, .here⟩
  · by_cases h' : pstr "/" <:+ d
    · obtain ⟨r, rfl⟩ := h'; exact ⟨_, .slash⟩
    · exact ⟨_, .plain h h'⟩

theorem imageFile_slash {base : PyStr} (h : ¬ pstr "/" <+: base) (n j : Nat) (ext : PyStr) : ¬ pstr "/" <+: imageFile base n j ++ ext := by
  rintro ⟨r, hr⟩
  unfold imageFile at hr
  cases base with
  | nil => simp [pstr] at hr
  | cons c base =>
    simp [pstr] at hr
    exact h ⟨base, by simp [pstr, hr.1]⟩

/-! ### The marks and the items -/

/-- The mark with number `j` is that image. -/
theorem hasImage_iff {p : Leaf} {j i : Nat} {a b c d e f : Dec} : HasImage p j i a b c d e f ↔ (p.marks.filter Mark.seen)[j]? = some (.image i a b c d e f) := by
  constructor
  · rintro ⟨before, after, h, rfl⟩
    rw [h, List.filter_append, List.getElem?_append_right (le_refl _), Nat.sub_self]
    rfl
  · intro h
    unfold HasImage
    generalize p.marks = ms at h ⊢
    induction ms generalizing j with
    | nil => simp at h
    | cons m ms ih =>
      by_cases hm : m.seen = true
      · rw [List.filter_cons_of_pos hm] at h
        cases j with
        | zero => simp at h; subst h; exact ⟨[], ms, rfl, rfl⟩
        | succ j =>
          obtain ⟨x, y, rfl, rfl⟩ := ih (by simpa using h)
          exact ⟨m :: x, y, rfl, by rw [List.filter_cons_of_pos hm]; simp⟩
      · rw [List.filter_cons_of_neg hm] at h
        obtain ⟨x, y, rfl, rfl⟩ := ih h
        exact ⟨m :: x, y, rfl, by rw [List.filter_cons_of_neg hm]⟩

/-- A mark that is seen and its item: an image is delivered as an image. -/
def ImageItem (images : List (List (Key × Obj) × Bytes)) : Mark → Item → Prop
  | .image i a b c d e f, it => ∃ attrs raw box, it = .image attrs raw box ∧ images[i]? = some (attrs, raw) ∧
      (OnSheet a b c d e f → SmallestBox box ([((0 : ℚ), (0 : ℚ)), (1, 0), (0, 1), (1, 1)].map fun v => (a.val * v.1 + c.val * v.2 + e.val, b.val * v.1 + d.val * v.2 + f.val)))
  | _, it => ∀ attrs raw box, it ≠ .image attrs raw box

theorem drawsAll_items {f : Font} {ig : Bool} {images : List (List (Key × Obj) × Bytes)} {σ : Style} {ms : List Mark} {is : List Item}
    (h : DrawsAll f ig images σ ms is) : List.Forall₂ (ImageItem images) (ms.filter Mark.seen) is := by
  induction h with
  | nil => exact .nil
  | cons h1 _ ih =>
    cases h1 with
    | fill _ => exact ih
    | stroke _ => exact ih
    | width => exact ih
    | rect _ _ => exact .cons (fun _ _ _ => nofun) ih
    | segment _ _ => exact .cons (fun _ _ _ => nofun) ih
    | path _ => exact .cons (fun _ _ _ => nofun) ih
    | image h2 h3 => exact .cons ⟨_, _, _, rfl, h2, h3⟩ ih
    | text _ => exact .cons (fun _ _ _ => nofun) ih

/-! ### Boxes -/

theorem box_size {a b c d e f : Dec} {box : Bbox}
    (h : SmallestBox box ([((0 : ℚ), (0 : ℚ)), (1, 0), (0, 1), (1, 1)].map fun v => (a.val * v.1 + c.val * v.2 + e.val, b.val * v.1 + d.val * v.2 + f.val))) :
    box.x1 - box.x0 = across a c ∧ box.y1 - box.y0 = across b d := by
  obtain ⟨h1, h2⟩ := h
  simp only [List.map_cons, List.map_nil, List.forall_mem_cons, List.not_mem_nil, false_implies, implies_true, and_true, Box, Set.mem_setOf_eq] at h1 h2
  have h3 := h2 (min 0 a.val + min 0 c.val + e.val) (min 0 b.val + min 0 d.val + f.val) (max 0 a.val + max 0 c.val + e.val) (max 0 b.val + max 0 d.val + f.val)
  unfold across
  have key : ∀ x : ℚ, (min 0 x = 0 ∧ max 0 x = x ∧ |x| = x ∧ 0 ≤ x) ∨ (min 0 x = x ∧ max 0 x = 0 ∧ |x| = -x ∧ x ≤ 0) := by
    intro x
    rcases le_total 0 x with h | h
    · exact .inl ⟨min_eq_left h, max_eq_right h, abs_of_nonneg h, h⟩
    · exact .inr ⟨min_eq_right h, max_eq_left h, abs_of_nonpos h, h⟩
  obtain ⟨p1, p2, p3, p4⟩ := h1
  have hb : min 0 a.val + min 0 c.val + e.val ≤ box.x0 ∧ min 0 b.val + min 0 d.val + f.val ≤ box.y0 ∧ box.x1 ≤ max 0 a.val + max 0 c.val + e.val ∧
      box.y1 ≤ max 0 b.val + max 0 d.val + f.val := by
    apply h3
    rcases key a.val with ⟨a1, a2, _, a4⟩ | ⟨a1, a2, _, a4⟩ <;> rcases key b.val with ⟨b1, b2, _, b4⟩ | ⟨b1, b2, _, b4⟩ <;>
      rcases key c.val with ⟨c1, c2, _, c4⟩ | ⟨c1, c2, _, c4⟩ <;> rcases key d.val with ⟨d1, d2, _, d4⟩ | ⟨d1, d2, _, d4⟩ <;>
      simp only [a1, a2, b1, b2, c1, c2, d1, d2] <;> refine ⟨⟨?_, ?_, ?_, ?_⟩, ⟨?_, ?_, ?_, ?_⟩, ⟨?_, ?_, ?_, ?_⟩, ?_, ?_, ?_, ?_⟩ <;> linarith
  obtain ⟨q1, q2, q3, q4⟩ := hb
  constructor
  · rcases key a.val with ⟨a1, a2, a3, a4⟩ | ⟨a1, a2, a3, a4⟩ <;> rcases key c.val with ⟨c1, c2, c3, c4⟩ | ⟨c1, c2, c3, c4⟩ <;>
      simp only [a1, a2, c1, c2] at q1 q3 <;> rw [a3, c3] <;> linarith
  · rcases key b.val with ⟨a1, a2, a3, a4⟩ | ⟨a1, a2, a3, a4⟩ <;> rcases key d.val with ⟨c1, c2, c3, c4⟩ | ⟨c1, c2, c3, c4⟩ <;>
      simp only [a1, a2, c1, c2] at q2 q4 <;> rw [a3, c3] <;> linarith

theorem across_nonneg (a c : Dec) : 0 ≤ across a c := add_nonneg (abs_nonneg _) (abs_nonneg _)

theorem whole_pyNumber (fl : Bool) {q : ℚ} (h : 0 ≤ q) : WholePart (pyNumber fl q) ⌊q⌋₊ := by
  cases fl with
  | true => exact ⟨Nat.floor_le h, Nat.lt_floor_add_one q⟩
  | false => exact (Int.natCast_floor_eq_floor h).symm

/-! ### One image -/

/-- A stream object that only `save_image` was called for. -/
def Untouched (L : SaveEnv) (attrs : List (Key × Obj)) (raw : Bytes) (s : StreamSt) : Prop :=
  StreamOf (decodeStream L.objects L.inflate none attrs) raw s ∧ ((∃ params, Stages attrs [(.dct, params)]) → s = .fresh raw)

theorem not_dct {attrs : List (Key × Obj)} {stages : List (Filter × List (Key × Obj))} (R : Resolver) (h : Stages attrs stages) (hn : stages.map (·.1) ≠ [Filter.dct]) :
    ¬ ∃ params, Stages attrs [(.dct, params)] := by
  rintro ⟨params, h'⟩
  obtain ⟨fs, h1, h2⟩ := onlyDct_stages (R := R) h
  obtain ⟨fs', h3, h4⟩ := onlyDct_stages (R := R) h'
  rw [h1] at h3
  cases h3
  exact hn (h2.1 (h4.2 rfl))

theorem save_one {L : SaveEnv} {deflated : Bytes → Bytes → Prop} (hL : SaveWorks L deflated) {n j : Nat} {attrs : List (Key × Obj)} {raw : Bytes} {a b c d e f : Dec} {box : Bbox}
    (hbox : OnSheet a b c d e f → SmallestBox box ([((0 : ℚ), (0 : ℚ)), (1, 0), (0, 1), (1, 1)].map fun v => (a.val * v.1 + c.val * v.2 + e.val, b.val * v.1 + d.val * v.2 + f.val)))
    {s : StreamSt} (hs : Untouched L attrs raw s) (F : Files) {ext : PyStr} {P : Bytes → Prop}
    (h : FileOf L.objects deflated attrs raw (L.floats n j = (false, false)) a b c d e f ext P) :
    (∃ r, ext = 0x2e :: r) ∧ ∃ F' s' path file, (L.image n j attrs box).save L.objects L.canOpen L.invert F s L.outdir (some (L.fileName n j)) = (F', s', .ok path) ∧
      InDir L.outdir (imageFile L.base n j ++ ext) path ∧ Wrote F F' path file ∧ P file ∧ Untouched L attrs raw s' := by
  obtain ⟨path, hp⟩ := inDir_exists L.outdir (imageFile L.base n j ++ ext)
  have ho := hL.opens n j ext path hp
  have hsl := imageFile_slash hL.base n j ext
  have hb : BaseName (L.image n j attrs box) (some (L.fileName n j)) (imageFile L.base n j) := rfl
  cases h with
  | jpeg h1 h2 h3 =>
    refine ⟨⟨_, rfl⟩, ?_⟩
    have hf := hs.2 ⟨_, h1⟩
    subst hf
    obtain ⟨F', k1, k2⟩ := save_jpeg (i := L.image n j attrs box) h1 h2 h3 L.objects L.canOpen L.invert F raw hb hp hsl ho
    exact ⟨F', _, path, raw, k1, hp, k2, rfl, hs⟩
  | @data stages plain bits h1 h2 h3 h4 h5 h6 =>
    refine ⟨⟨_, rfl⟩, ?_⟩
    have hdec : (L.image n j attrs box).decode raw = .ok plain :=
      stream_data_partial L.objects hL.ints deflated L.inflate hL.inflate attrs stages h1 plain raw raw h3 none rfl
    obtain ⟨w1, w2⟩ := box_size (hbox h6)
    have hw : WholePart (L.image n j attrs box).width ⌊across a c⌋₊ := by
      rw [← w1]; exact whole_pyNumber _ (w1 ▸ across_nonneg a c)
    have hh : WholePart (L.image n j attrs box).height ⌊across b d⌋₊ := by
      rw [← w2]; exact whole_pyNumber _ (w2 ▸ across_nonneg b d)
    obtain ⟨F', s', k1, k2, k3⟩ := save_raw (i := L.image n j attrs box) h1 h2 h4 h5 L.objects L.canOpen L.invert F hs.1 hdec hw hh hb hp hsl ho
    exact ⟨F', s', path, plain, k1, hp, k2, rfl, k3, fun hd => absurd hd (not_dct L.objects h1 h2)⟩
  | @bitmap stages plain w h h1 h2 h3 h4 h5 h6 h7 h8 h9 h10 h11 =>
    refine ⟨⟨_, rfl⟩, ?_⟩
    have hdec : (L.image n j attrs box).decode raw = .ok plain :=
      stream_data_partial L.objects hL.ints deflated L.inflate hL.inflate attrs stages h1 plain raw raw h3 none rfl
    obtain ⟨w1, w2⟩ := box_size (hbox h5)
    have hw : (L.image n j attrs box).width = .int w := by
      show pyNumber (L.floats n j).1 (box.x1 - box.x0) = _
      rw [h6, w1, h7]; simp [pyNumber]
    have hh : (L.image n j attrs box).height = .int h := by
      show pyNumber (L.floats n j).2 (box.y1 - box.y0) = _
      rw [h6, w2, h8]; simp [pyNumber]
    obtain ⟨F', s', file, k1, k2, k3, k4⟩ := save_bitmap (i := L.image n j attrs box) h1 h2 h4 L.objects L.canOpen L.invert F hs.1 hdec hw hh h9 h10 h11 hb hp hsl ho
    exact ⟨F', s', path, file, k1, hp, k2, k3, k4, fun hd => absurd hd (not_dct L.objects h1 h2)⟩

/-! ### All images -/

/-- What is known after the items before item `j` of page `n`. -/
structure SoFar (L : SaveEnv) (deflated : Bytes → Bytes → Prop) (images : List (List (Key × Obj) × Bytes)) (pages : List Leaf) (F₀ : Files) (n j : Nat)
    (F : Files) (T : StreamObjs) : Prop where
  objects : ∀ n' p, pages[n']? = some p → ∀ j' i a b c d e f, HasImage p j' i a b c d e f → ∀ attrs raw, images[i]? = some (attrs, raw) →
    Untouched L attrs raw ((T (L.holds n' j')).getD (.fresh raw))
  out : ∀ n' p, pages[n']? = some p → ∀ j', (n' < n ∨ n' = n ∧ j' < j) → ∀ i a b c d e f, HasImage p j' i a b c d e f → Out L deflated images n' j' i a b c d e f F
  only : ∀ q, F q ≠ F₀ q → ∃ n' p j' i a b c d e f, pages[n']? = some p ∧ HasImage p j' i a b c d e f ∧ ∃ ext, InDir L.outdir (imageFile L.base n' j' ++ ext) q

theorem Spec.SavableTo.mono {L : SaveEnv} {deflated : Bytes → Bytes → Prop} {images : List (List (Key × Obj) × Bytes)} {pages : List Leaf} {n j n' j' : Nat}
    (h : SavableTo L deflated images pages n' j') (hle : n < n' ∨ n = n' ∧ j ≤ j') : SavableTo L deflated images pages n j :=
  fun n'' p hp j'' hlt => h n'' p hp j'' (by omega)

theorem soFar_image {L : SaveEnv} {deflated : Bytes → Bytes → Prop} (hL : SaveWorks L deflated) {images : List (List (Key × Obj) × Bytes)} {pages : List Leaf} {F₀ : Files}
    {n j : Nat} (hsav : SavableTo L deflated images pages n (j + 1)) (hsame : SameObject L pages) {p : Leaf} (hp : pages[n]? = some p)
    {i : Nat} {a b c d e f : Dec} (hi : HasImage p j i a b c d e f) {attrs : List (Key × Obj)} {raw : Bytes} {box : Bbox} (himg : images[i]? = some (attrs, raw))
    (hbox : OnSheet a b c d e f → SmallestBox box ([((0 : ℚ), (0 : ℚ)), (1, 0), (0, 1), (1, 1)].map fun v => (a.val * v.1 + c.val * v.2 + e.val, b.val * v.1 + d.val * v.2 + f.val)))
    {F : Files} {T : StreamObjs} (h : SoFar L deflated images pages F₀ n j F T) :
    ∃ F' s' path, (L.image n j attrs box).save L.objects L.canOpen L.invert F ((T (L.holds n j)).getD (.fresh raw)) L.outdir (some (L.fileName n j)) = (F', s', .ok path) ∧
      SoFar L deflated images pages F₀ n (j + 1) F' (T.put (L.holds n j) s') := by
  have hs := h.objects n p hp j i a b c d e f hi attrs raw himg
  obtain ⟨ext, P, hfile⟩ := hsav n p hp j (by omega) i a b c d e f hi attrs raw himg
  obtain ⟨⟨r, hr⟩, F', s', path, file, k1, k2, k3, k4, k5⟩ := save_one hL hbox hs F hfile
  refine ⟨F', s', path, k1, ⟨?_, ?_, ?_⟩⟩
  · intro n' p' hp' j' i' a' b' c' d' e' f' hi' attrs' raw' himg'
    by_cases heq : L.holds n' j' = L.holds n j
    · have := hsame n' n p' p hp' hp j' j i' i _ _ _ _ _ _ _ _ _ _ _ _ hi' hi heq
      subst this
      rw [himg] at himg'
      cases himg'
      simp only [StreamObjs.put, heq, if_true, Option.getD_some]
      exact k5
    · simp only [StreamObjs.put, heq, if_false]
      exact h.objects n' p' hp' j' i' a' b' c' d' e' f' hi' attrs' raw' himg'
  · intro n' p' hp' j' hlt i' a' b' c' d' e' f' hi'
    by_cases heq : n' = n ∧ j' = j
    · obtain ⟨rfl, rfl⟩ := heq
      rw [hp] at hp'
      cases hp'
      rw [hasImage_iff] at hi hi'
      rw [hi] at hi'
      cases hi'
      refine ⟨attrs, raw, path, file, himg, k3.1, ?_⟩
      intro ext' P' hfile'
      obtain ⟨_, F'', s'', path', file', l1, l2, l3, l4, _⟩ := save_one hL hbox hs F hfile'
      rw [k1] at l1
      simp only [Prod.mk.injEq, Except.ok.injEq] at l1
      obtain ⟨rfl, rfl, rfl⟩ := l1
      have : some file = some file' := k3.1.symm.trans l3.1
      cases this
      exact ⟨l2, l4⟩
    · have hlt' : n' < n ∨ n' = n ∧ j' < j := by omega
      obtain ⟨attrs', raw', path', file', m1, m2, m3⟩ := h.out n' p' hp' j' hlt' i' a' b' c' d' e' f' hi'
      refine ⟨attrs', raw', path', file', m1, ?_, m3⟩
      rw [k3.2 path' ?_]
      · exact m2
      · rintro rfl
        obtain ⟨ext', P', hfile'⟩ := hsav n' p' hp' j' hlt i' a' b' c' d' e' f' hi' attrs' raw' m1
        have e1 := inDir_inj k2 (m3 ext' P' hfile').1
        obtain ⟨r', hr'⟩ : ∃ r', ext' = 0x2e :: r' := by cases hfile' <;> exact ⟨_, rfl⟩
        rw [hr, hr'] at e1
        obtain ⟨rfl, rfl⟩ := imageFile_inj e1
        exact heq ⟨rfl, rfl⟩
  · intro q hq
    by_cases hqp : q = path
    · subst hqp
      exact ⟨n, p, j, i, a, b, c, d, e, f, hp, hi, ext, k2⟩
    · rw [k3.2 q hqp] at hq
      exact h.only q hq

theorem soFar_items {L : SaveEnv} {deflated : Bytes → Bytes → Prop} (hL : SaveWorks L deflated) {images : List (List (Key × Obj) × Bytes)} {pages : List Leaf} {F₀ : Files}
    {n : Nat} (hsame : SameObject L pages) {p : Leaf} (hp : pages[n]? = some p)
    {ms : List Mark} {is : List Item} (hms : List.Forall₂ (ImageItem images) ms is) : ∀ {j : Nat} {F : Files} {T : StreamObjs} {rest : List Mark} (more : List Item),
      (p.marks.filter Mark.seen).drop j = ms ++ rest → SavableTo L deflated images pages n (j + ms.length) →
      SoFar L deflated images pages F₀ n j F T → ∃ F' T', L.items n j (is ++ more) F T = L.items n (j + ms.length) more F' T' ∧ SoFar L deflated images pages F₀ n (j + ms.length) F' T' := by
  induction hms with
  | nil => intro j F T rest more _ _ h; exact ⟨F, T, rfl, h⟩
  | @cons m it ms is hm _ ih =>
    intro j F T rest more hd hsav h
    have e : j + (m :: ms).length = j + 1 + ms.length := by rw [List.length_cons]; omega
    rw [e] at hsav ⊢
    have hj : (p.marks.filter Mark.seen)[j]? = some m := by
      have := congrArg (fun l => l[0]?) hd
      simpa using this
    have hd' : (p.marks.filter Mark.seen).drop (j + 1) = ms ++ rest := by
      rw [← List.drop_drop, hd]; rfl
    by_cases hi : ∃ i a b c d e f, m = .image i a b c d e f
    · obtain ⟨i, a, b, c, d, e, f, rfl⟩ := hi
      obtain ⟨attrs, raw, box, rfl, himg, hbox⟩ := hm
      obtain ⟨F', s', path, k1, k2⟩ := soFar_image hL (hsav.mono (by omega)) hsame hp (hasImage_iff.2 hj) himg hbox h
      obtain ⟨F'', T'', k3, k4⟩ := ih more hd' hsav k2
      refine ⟨F'', T'', ?_, k4⟩
      rw [List.cons_append, SaveEnv.items, k1]
      exact k3
    · have hn : ∀ attrs raw box, it ≠ .image attrs raw box := by
        cases m with
        | image => exact absurd ⟨_, _, _, _, _, _, _, rfl⟩ hi
        | _ => exact hm
      have h' : SoFar L deflated images pages F₀ n (j + 1) F T := by
        refine ⟨h.objects, ?_, h.only⟩
        intro n' p' hp' j' hlt i' a' b' c' d' e' f' hi'
        by_cases heq : n' = n ∧ j' = j
        · obtain ⟨rfl, rfl⟩ := heq
          rw [hp] at hp'
          cases hp'
          rw [hasImage_iff, hj] at hi'
          exact absurd ⟨_, _, _, _, _, _, _, Option.some.inj hi'⟩ hi
        · exact h.out n' p' hp' j' (by omega) i' a' b' c' d' e' f' hi'
      obtain ⟨F'', T'', k3, k4⟩ := ih more hd' hsav h'
      refine ⟨F'', T'', ?_, k4⟩
      rw [← k3]
      cases it with
      | image a b c => exact absurd rfl (hn a b c)
      | _ => rw [List.cons_append, SaveEnv.items]; simp

theorem soFar_pages {L : SaveEnv} {deflated : Bytes → Bytes → Prop} (hL : SaveWorks L deflated) {images : List (List (Key × Obj) × Bytes)} {pages : List Leaf} {F₀ : Files}
    (hsame : SameObject L pages) {font : Font} {ig : Bool}
    {ps : List Leaf} {outs : List (ℚ × ℚ × List Item)} (hps : List.Forall₂ (LeafOut font ig images) ps outs) : ∀ {n : Nat} {F : Files} {T : StreamObjs} {rest : List Leaf} (more : List LtPage),
      pages.drop n = ps ++ rest → SavableTo L deflated images pages (n + ps.length) 0 →
      SoFar L deflated images pages F₀ n 0 F T → ∃ F' T', L.pages (pagesWith n outs ++ more) F T = L.pages more F' T' ∧ SoFar L deflated images pages F₀ (n + ps.length) 0 F' T' := by
  induction hps with
  | nil => intro n F T rest more _ _ h; exact ⟨F, T, rfl, h⟩
  | @cons p out ps outs hm _ ih =>
    intro n F T rest more hd hsav h
    have e : n + (p :: ps).length = n + 1 + ps.length := by rw [List.length_cons]; omega
    rw [e] at hsav ⊢
    have hn : pages[n]? = some p := by
      have := congrArg (fun l => l[0]?) hd
      simpa using this
    have hd' : pages.drop (n + 1) = ps ++ rest := by
      rw [← List.drop_drop, hd]; rfl
    obtain ⟨items, rfl, hdr⟩ := hm
    obtain ⟨F', T', k1, k2⟩ := soFar_items hL hsame hn (drawsAll_items hdr) (j := 0) (rest := []) [] (by simp) (hsav.mono (by omega)) h
    rw [List.append_nil] at k1
    have k2' : SoFar L deflated images pages F₀ (n + 1) 0 F' T' := by
      refine ⟨k2.objects, ?_, k2.only⟩
      intro n' p' hp' j' hlt i' a' b' c' d' e' f' hi'
      refine k2.out n' p' hp' j' ?_ i' a' b' c' d' e' f' hi'
      by_cases heq : n' = n
      · subst heq
        rw [hn] at hp'
        cases hp'
        rw [hasImage_iff] at hi'
        have := (List.getElem?_eq_some_iff.1 hi').1
        omega
      · omega
    obtain ⟨F'', T'', k3, k4⟩ := ih more hd' hsav k2'
    refine ⟨F'', T'', ?_, k4⟩
    rw [← k3, pagesWith, List.cons_append, SaveEnv.pages]
    show (match L.items n 0 items F T with | (F', T', none) => L.pages (pagesWith (n + 1) outs ++ more) F' T' | r => r) = _
    rw [k1]
    rfl

theorem delivered_images {S : Setup} {opts : Options} {data : Bytes} {font : Font} {ig : Bool} {images : List (List (Key × Obj) × Bytes)} {A : List Leaf} {outs : List (ℚ × ℚ × List Item)}
    (k1 : List.Forall₂ (LeafOut font ig images) A outs) (hdel : ∃ N, ∀ fuel ≥ N, deliver S opts fuel data = { pages := pagesWith 0 outs })
    {L : SaveEnv} {deflated : Bytes → Bytes → Prop} (hL : SaveWorks L deflated) (hsav : ∀ n p, A[n]? = some p → Savable L deflated images n p) (hsame : SameObject L A) (F : Files) :
    ∃ F', (∀ n p, A[n]? = some p → ∀ j i a b c d e f, HasImage p j i a b c d e f → Out L deflated images n j i a b c d e f F') ∧
      (∀ q, F' q ≠ F q → ∃ n p j i a b c d e f, A[n]? = some p ∧ HasImage p j i a b c d e f ∧ ∃ ext, InDir L.outdir (imageFile L.base n j ++ ext) q) ∧
      ∃ N, ∀ fuel ≥ N, saveAll L S opts fuel data F = (F', none) := by
  obtain ⟨N, k2⟩ := hdel
  have h0 : SoFar L deflated images A F 0 0 F (fun _ => none) := by
    refine ⟨?_, ?_, fun q hq => absurd rfl hq⟩
    · intro _ _ _ _ _ _ _ _ _ _ _ _ attrs raw _
      exact ⟨.inl rfl, fun _ => rfl⟩
    · intro n' _ _ j' hlt
      omega
  obtain ⟨F', T', k3, k4⟩ := soFar_pages hL hsame k1 (n := 0) (rest := []) [] (by simp) (fun n p hp j _ => hsav n p hp j) h0
  rw [List.append_nil] at k3
  refine ⟨F', ?_, k4.only, N, fun fuel hfu => ?_⟩
  · intro n p hp j i a b c d e f hi
    refine k4.out n p hp j (.inl ?_) i a b c d e f hi
    have := (List.getElem?_eq_some_iff.1 hp).1
    omega
  · unfold saveAll
    rw [k2 fuel hfu]
    dsimp only
    rw [k3]
    rfl

/-- **C116.** The program that saves the images of a written document ends without an exception. Each image of the pages that are asked for is in its file, however
often it is drawn and whether or not stream objects are shared: a JPEG image byte for byte, other data as they were before they were encoded, one-bit images as
bitmaps. No two images get the same file, and no other file changes. -/
theorem images_saved (S : Setup) (hb : 0 < S.bufsiz) (opts : Options) (font : List (Key × Obj)) (hw : WF (.dict font)) (images : List (List (Key × Obj) × Bytes)) (him : ∀ i ∈ images, IsImage i)
    (pages : List Leaf) (k : Nat) (f : Font) (hf : buildFont (S.fontEnv (fileResolver (numbered 1 (drawObjs font images pages)))) k font = .ok f)
    (h : ∀ p ∈ pages, ∀ m ∈ p.marks, Drawable f opts.ignoreBad images.length m) (maxpages : Nat) (hmax : opts.maxpages = maxpages) (hne : asked opts.pagenos maxpages pages ≠ [])
    (L : SaveEnv) (deflated : Bytes → Bytes → Prop) (hL : SaveWorks L deflated)
    (hsav : ∀ n p, (asked opts.pagenos maxpages pages)[n]? = some p → Savable L deflated images n p) (hsame : SameObject L (asked opts.pagenos maxpages pages)) (F : Files) :
    ∃ F', (∀ n p, (asked opts.pagenos maxpages pages)[n]? = some p → ∀ j i a b c d e f, HasImage p j i a b c d e f → Out L deflated images n j i a b c d e f F') ∧
      (∀ q, F' q ≠ F q → ∃ n p j i a b c d e f, (asked opts.pagenos maxpages pages)[n]? = some p ∧ HasImage p j i a b c d e f ∧
        ∃ ext, InDir L.outdir (imageFile L.base n j ++ ext) q) ∧
      ∃ N, ∀ fuel ≥ N, saveAll L S opts fuel (writeDrawing font images pages) F = (F', none) := by
  obtain ⟨outs, k1, k2⟩ := drawing_file S hb opts font hw images him pages k f hf h maxpages hmax hne
  exact delivered_images k1 k2 hL hsav hsame F

/-- A failing call changes at most the file of its item. -/
theorem save_fails_at {i : LtImage} {R : Resolver} {canOpen : PyStr → Bool} {invert : Option (Bytes → Except PyErr Bytes)} {F F' : Files} {s s' : StreamSt} {outdir name : PyStr}
    {r : Except PyErr PyStr} (h : i.save R canOpen invert F s outdir (some name) = (F', s', r)) :
    ∃ ext, ∀ q, q ≠ pathJoin outdir (name ++ 0x2e :: ext) → F' q = F q := by
  unfold LtImage.save at h
  split at h
  · cases h; exact ⟨[], fun _ _ => rfl⟩
  · split at h
    · cases h; exact ⟨[], fun _ _ => rfl⟩
    · rename_i filters _ _ ext hext
      obtain ⟨r', rfl⟩ : ∃ r', ext = 0x2e :: r' := by
        generalize i.kind filters = k at hext
        cases k with
        | jpg => cases hext; exact ⟨_, rfl⟩
        | bmp => cases hext; exact ⟨_, rfl⟩
        | img =>
          simp only [LtImage.ext, bind, Except.bind] at hext
          split at hext
          · cases hext
          · cases hext; exact ⟨_, rfl⟩
      refine ⟨r', fun q hq => ?_⟩
      dsimp only at h
      split at h
      · split at h <;> (cases h; exact if_neg hq)
      · cases h; rfl

theorem pagesWith_append (outs outs' : List (ℚ × ℚ × List Item)) (n : Nat) : pagesWith n (outs ++ outs') = pagesWith n outs ++ pagesWith (n + outs.length) outs' := by
  induction outs generalizing n with
  | nil => rfl
  | cons o outs ih => simp only [List.cons_append, pagesWith, ih, List.length_cons]; congr 3; omega

/-- **C116.** If the data of an image cannot be decoded, this is not passed over: the program ends with an exception. The images before it are in their files. -/
theorem images_until (S : Setup) (hb : 0 < S.bufsiz) (opts : Options) (font : List (Key × Obj)) (hw : WF (.dict font)) (images : List (List (Key × Obj) × Bytes)) (him : ∀ i ∈ images, IsImage i)
    (pages : List Leaf) (k : Nat) (f : Font) (hf : buildFont (S.fontEnv (fileResolver (numbered 1 (drawObjs font images pages)))) k font = .ok f)
    (h : ∀ p ∈ pages, ∀ m ∈ p.marks, Drawable f opts.ignoreBad images.length m) (maxpages : Nat) (hmax : opts.maxpages = maxpages) (hne : asked opts.pagenos maxpages pages ≠ [])
    (L : SaveEnv) (deflated : Bytes → Bytes → Prop) (hL : SaveWorks L deflated) (hsame : SameObject L (asked opts.pagenos maxpages pages)) (F : Files)
    {n : Nat} {p : Leaf} (hn : (asked opts.pagenos maxpages pages)[n]? = some p) {j i : Nat} {a b c d e f' : Dec} (hi : HasImage p j i a b c d e f')
    {attrs : List (Key × Obj)} {raw : Bytes} (himg : images[i]? = some (attrs, raw)) {stages : List (Filter × List (Key × Obj))} (hst : Stages attrs stages)
    (hnd : stages.map (·.1) ≠ [Filter.dct]) {x : PyErr} (hx : decodeStream L.objects L.inflate none attrs raw = .error x)
    (hsav : SavableTo L deflated images (asked opts.pagenos maxpages pages) n j) :
    ∃ F' y, (∀ n' p', (asked opts.pagenos maxpages pages)[n']? = some p' → ∀ j', (n' < n ∨ n' = n ∧ j' < j) → ∀ i a b c d e f, HasImage p' j' i a b c d e f →
        Out L deflated images n' j' i a b c d e f F') ∧
      ∃ N, ∀ fuel ≥ N, saveAll L S opts fuel (writeDrawing font images pages) F = (F', some y) := by
  obtain ⟨outs, k1, N, k2⟩ := drawing_file S hb opts font hw images him pages k f hf h maxpages hmax hne
  have h0 : SoFar L deflated images (asked opts.pagenos maxpages pages) F 0 0 F (fun _ => none) := by
    refine ⟨?_, ?_, fun q hq => absurd rfl hq⟩
    · intro _ _ _ _ _ _ _ _ _ _ _ _ attrs raw _
      exact ⟨.inl rfl, fun _ => rfl⟩
    · intro n' _ _ j' hlt
      omega
  generalize asked opts.pagenos maxpages pages = A at *
  obtain ⟨hlt, hget⟩ := List.getElem?_eq_some_iff.1 hn
  have hA : A = A.take n ++ p :: A.drop (n + 1) := by rw [← hget, List.getElem_cons_drop, List.take_append_drop]
  rw [hA] at k1
  obtain ⟨o1, o2, l1, l2, rfl⟩ : ∃ o1 o2, List.Forall₂ (LeafOut f opts.ignoreBad images) (A.take n) o1 ∧ List.Forall₂ (LeafOut f opts.ignoreBad images) (p :: A.drop (n + 1)) o2 ∧ outs = o1 ++ o2 := by
    rw [List.forall₂_iff_zip] at k1
    refine ⟨outs.take n, outs.drop n, ?_, ?_, (List.take_append_drop n outs).symm⟩
    · have := List.forall₂_take n (List.forall₂_iff_zip.2 k1)
      rwa [List.take_append_of_le_length (by simp; omega), List.take_take, min_self] at this
    · have := List.forall₂_drop n (List.forall₂_iff_zip.2 k1)
      rwa [List.drop_append_of_le_length (by simp; omega), List.drop_take, Nat.sub_self, List.take_zero, List.nil_append] at this
  cases l2 with
  | @cons _ out _ outs' hout _ =>
  obtain ⟨items, rfl, hdr⟩ := hout
  have hlen : (A.take n).length = n := by simp; omega
  obtain ⟨F1, T1, k3, k4⟩ := soFar_pages hL hsame l1 (n := 0) (rest := p :: A.drop (n + 1)) (pagesWith n ((p.width.val, p.height.val, items) :: outs')) (by rw [← hA]; rfl)
    (hsav.mono (by omega)) h0
  rw [hlen, Nat.zero_add] at k4
  have hit := drawsAll_items hdr
  rw [hasImage_iff] at hi
  obtain ⟨hltj, hgetj⟩ := List.getElem?_eq_some_iff.1 hi
  generalize hms : p.marks.filter Mark.seen = ms at *
  have hM : ms = ms.take j ++ .image i a b c d e f' :: ms.drop (j + 1) := by rw [← hgetj, List.getElem_cons_drop, List.take_append_drop]
  have hit1 := List.forall₂_take j hit
  have hit2 := List.forall₂_drop j hit
  have hdropj : ms.drop j = .image i a b c d e f' :: ms.drop (j + 1) := by rw [← hgetj, List.getElem_cons_drop]
  rw [hdropj] at hit2
  obtain ⟨it, rest, hits⟩ : ∃ it rest, items.drop j = it :: rest := by
    generalize items.drop j = l at hit2
    cases hit2 with
    | cons _ _ => exact ⟨_, _, rfl⟩
  rw [hits] at hit2
  cases hit2 with
  | cons hm _ =>
  obtain ⟨attrs', raw', box, rfl, himg', hbox⟩ := hm
  rw [himg] at himg'
  cases himg'
  have hlenj : (ms.take j).length = j := by simp; omega
  obtain ⟨F2, T2, k5, k6⟩ := soFar_items hL hsame hn hit1 (j := 0) (rest := ms.drop j) (items.drop j) (by rw [hms]; simp) (by rw [hlenj, Nat.zero_add]; exact hsav) k4
  rw [hlenj, Nat.zero_add, List.take_append_drop, hits] at k5
  rw [hlenj, Nat.zero_add] at k6
  have hs := k6.objects n p hn j i a b c d e f' (hasImage_iff.2 (by rw [hms]; exact hi)) attrs raw himg
  obtain ⟨F3, s3, y, k7⟩ := save_never (i := L.image n j attrs box) hst hnd L.objects L.canOpen L.invert F2 hs.1 hx L.outdir (some (L.fileName n j))
  refine ⟨F3, y, ?_, N, fun fuel hfu => ?_⟩
  · intro n' p' hp' j' hlt' i' a' b' c' d' e' g' hi'
    obtain ⟨attrs', raw', path, file, m1, m2, m3⟩ := k6.out n' p' hp' j' hlt' i' a' b' c' d' e' g' hi'
    refine ⟨attrs', raw', path, file, m1, ?_, m3⟩
    obtain ⟨ext, k8⟩ := save_fails_at k7
    rw [k8 path ?_]
    · exact m2
    · rintro rfl
      obtain ⟨ext', P', hfile'⟩ := hsav n' p' hp' j' hlt' i' a' b' c' d' e' g' hi' attrs' raw' m1
      obtain ⟨r', hr'⟩ : ∃ r', ext' = 0x2e :: r' := by cases hfile' <;> exact ⟨_, rfl⟩
      obtain ⟨path', hpath'⟩ := inDir_exists L.outdir (imageFile L.base n j ++ 0x2e :: ext)
      have e1 := inDir_join hpath' (imageFile_slash hL.base n j _)
      have e2 := (m3 ext' P' hfile').1
      rw [show L.fileName n j = imageFile L.base n j from rfl, e1, hr'] at e2
      obtain ⟨rfl, rfl⟩ := imageFile_inj (inDir_inj hpath' e2)
      omega
  · unfold saveAll
    rw [k2 fuel hfu]
    dsimp only
    rw [pagesWith_append, show o1.length = n by rw [← l1.length_eq, hlen], Nat.zero_add, k3]
    have : L.pages (pagesWith n ((p.width.val, p.height.val, items) :: outs')) F1 T1 = (F3, T2.put (L.holds n j) s3, some y) := by
      rw [pagesWith, SaveEnv.pages]
      show (match L.items n 0 items F1 T1 with | (F', T', none) => L.pages (pagesWith (n + 1) outs') F' T' | r => r) = _
      rw [k5, SaveEnv.items, k7]
    rw [this]

/-- **C116.** The images come out of files with object streams and cross-reference streams (C114) in the same way. -/
theorem packed_images_saved (S : Setup) (hb : 0 < S.bufsiz) (c x : Coding) (opts : Options) (font : List (Key × Obj)) (images : List (List (Key × Obj) × Bytes))
    (him : ∀ i ∈ images, IsImage i) (pages : List Leaf) (hk : Packable S.fileDecode c x (drawObjs font images pages) (.ref 1 0)) (k : Nat) (f : Font)
    (hf : buildFont (S.fontEnv (fileResolver (numbered 1 (packedObjs c x (drawObjs font images pages) (.ref 1 0))))) k font = .ok f)
    (h : ∀ p ∈ pages, ∀ m ∈ p.marks, Drawable f opts.ignoreBad images.length m) (maxpages : Nat) (hmax : opts.maxpages = maxpages) (hne : asked opts.pagenos maxpages pages ≠ [])
    (L : SaveEnv) (deflated : Bytes → Bytes → Prop) (hL : SaveWorks L deflated)
    (hsav : ∀ n p, (asked opts.pagenos maxpages pages)[n]? = some p → Savable L deflated images n p) (hsame : SameObject L (asked opts.pagenos maxpages pages)) (F : Files) :
    ∃ F', (∀ n p, (asked opts.pagenos maxpages pages)[n]? = some p → ∀ j i a b c d e f, HasImage p j i a b c d e f → Out L deflated images n j i a b c d e f F') ∧
      (∀ q, F' q ≠ F q → ∃ n p j i a b c d e f, (asked opts.pagenos maxpages pages)[n]? = some p ∧ HasImage p j i a b c d e f ∧
        ∃ ext, InDir L.outdir (imageFile L.base n j ++ ext) q) ∧
      ∃ N, ∀ fuel ≥ N, saveAll L S opts fuel (writePacked c x (drawObjs font images pages) (.ref 1 0)) F = (F', none) := by
  obtain ⟨outs, k1, k2⟩ := packed_drawing S hb c x opts font images him pages hk k f hf h maxpages hmax hne
  exact delivered_images k1 k2 hL hsav hsame F

/-- **C116.** Two files that are not encrypted and have the same objects (C113) give the same files with images, or stop at the same place: a file and its repaired,
updated or repacked form, for example. -/
theorem same_images {S : Setup} (hb : 0 < S.bufsiz) (hm : ∀ x, (S.crypto.md5 x).length = 16) (hsha : ∀ x, (S.crypto.sha x).length = 32) {E : Bytes → Bytes → Bytes}
    (hc : BlockCipher E S.crypto.aes) {opts opts' : Options} {data data' : Bytes} {objs objs' : List (Int × Obj)} {catalog : List (Key × Obj)}
    (h : PlainFile S data objs catalog) (h' : PlainFile S data' objs' catalog) (he : ∀ i, dictGet objs i = dictGet objs' i) (hp : HasPage objs catalog)
    (ho : SameRequest opts opts') : ∃ N, ∀ fuel ≥ N, ∀ L F, saveAll L S opts fuel data F = saveAll L S opts' fuel data' F := by
  obtain ⟨N, hN⟩ := same_objects (E := E) hb hm hsha hc (.plain h) (.plain h') he hp ho
  refine ⟨N, fun fuel hf L F => ?_⟩
  unfold saveAll
  rw [hN fuel hf]

/-- **C116.** The same for documents with ASCII strings in Helvetica: nothing has to be assumed about the font. -/
theorem ascii_images_saved (S : Setup) (h : Furnished S) (opts : Options) (images : List (List (Key × Obj) × Bytes)) (him : ∀ i ∈ images, IsImage i) (pages : List Leaf)
    (hp : ∀ p ∈ pages, ∀ m ∈ p.marks, AsciiMark images.length m) (maxpages : Nat) (hmax : opts.maxpages = maxpages) (hne : asked opts.pagenos maxpages pages ≠ [])
    (L : SaveEnv) (deflated : Bytes → Bytes → Prop) (hL : SaveWorks L deflated)
    (hsav : ∀ n p, (asked opts.pagenos maxpages pages)[n]? = some p → Savable L deflated images n p) (hsame : SameObject L (asked opts.pagenos maxpages pages)) (F : Files) :
    ∃ F', (∀ n p, (asked opts.pagenos maxpages pages)[n]? = some p → ∀ j i a b c d e f, HasImage p j i a b c d e f → Out L deflated images n j i a b c d e f F') ∧
      (∀ q, F' q ≠ F q → ∃ n p j i a b c d e f, (asked opts.pagenos maxpages pages)[n]? = some p ∧ HasImage p j i a b c d e f ∧
        ∃ ext, InDir L.outdir (imageFile L.base n j ++ ext) q) ∧
      ∃ N, ∀ fuel ≥ N, saveAll L S opts fuel (writeDrawing helvetica images pages) F = (F', none) := by
  obtain ⟨f, h1, h2⟩ := helvetica_built S h (fileResolver (numbered 1 (drawObjs helvetica images pages))) (fileResolver_direct _)
  exact images_saved S h.bufsiz opts helvetica helvetica_wf images him pages 1 f h1 (fun p q m hm => helvetica_drawable h2 _ (hp p q m hm)) maxpages hmax hne L deflated hL hsav hsame F

/-! ### A sample: a picture drawn twice, and a JPEG image -/

/-- A JPEG image (its data are made up). -/
def sampleJpeg : List (Key × Obj) × Bytes :=
  ([(nm "Type", .name (asc "XObject")), (nm "Subtype", .name (asc "Image")), (nm "Width", .int 2), (nm "Height", .int 2), (nm "BitsPerComponent", .int 8),
    (nm "ColorSpace", .name (asc "DeviceRGB")), (nm "Filter", .name (asc "DCTDecode")), (nm "Length", .int 4)], [0xff, 0xd8, 0xff, 0xd9])

theorem sampleJpeg_image : IsImage sampleJpeg := by
  refine ⟨⟨⟨?_, ?_⟩, ?_, ?_⟩, by decide, by decide, by decide⟩
  · show [nm "Type", nm "Subtype", nm "Width", nm "Height", nm "BitsPerComponent", nm "ColorSpace", nm "Filter", nm "Length"].Nodup
    decide
  · exact ⟨⟨_, rfl⟩, trivial, ⟨_, rfl⟩, trivial, ⟨_, rfl⟩, trivial, ⟨_, rfl⟩, trivial, ⟨_, rfl⟩, trivial, ⟨_, rfl⟩, trivial, ⟨_, rfl⟩, trivial, ⟨_, rfl⟩, trivial, trivial⟩
  · decide
  · intro h
    exact absurd (h.subset (show (101 : UInt8) ∈ asc "endstream" by decide)) (by decide)

/-- A page with the gray picture in two sizes and the JPEG image. -/
def sampleAlbum : Leaf :=
  ⟨⟨612, 0⟩, ⟨792, 0⟩, [.width ⟨2, 0⟩, .image 0 ⟨100, 0⟩ ⟨0, 0⟩ ⟨0, 0⟩ ⟨50, 0⟩ ⟨72, 0⟩ ⟨144, 0⟩, .text ⟨12, 0⟩ ⟨72, 0⟩ ⟨7205, 1⟩ (asc "Hi!"),
    .image 0 ⟨5, 1⟩ ⟨0, 0⟩ ⟨0, 0⟩ ⟨75, 1⟩ ⟨72, 0⟩ ⟨144, 0⟩, .image 1 ⟨100, 0⟩ ⟨0, 0⟩ ⟨0, 0⟩ ⟨50, 0⟩ ⟨72, 0⟩ ⟨144, 0⟩]⟩

/-- The program, with shared stream objects. -/
def sampleSaver : SaveEnv where
  outdir := pstr "out"
  base := pstr "doc"
  objects := ⟨fun o => .ok o, fun _ => .ok .null⟩
  inflate := fun _ => none
  canOpen := fun _ => true
  invert := none
  holds := fun _ j => if j = 3 then 1 else 0
  floats := fun _ _ => (true, true)

theorem sampleAlbum_has {j i : Nat} {a b c d e f : Dec} (h : HasImage sampleAlbum j i a b c d e f) :
    j = 0 ∧ i = 0 ∧ (a, b, c, d, e, f) = (⟨100, 0⟩, ⟨0, 0⟩, ⟨0, 0⟩, ⟨50, 0⟩, ⟨72, 0⟩, ⟨144, 0⟩) ∨
    j = 2 ∧ i = 0 ∧ (a, b, c, d, e, f) = (⟨5, 1⟩, ⟨0, 0⟩, ⟨0, 0⟩, ⟨75, 1⟩, ⟨72, 0⟩, ⟨144, 0⟩) ∨
    j = 3 ∧ i = 1 ∧ (a, b, c, d, e, f) = (⟨100, 0⟩, ⟨0, 0⟩, ⟨0, 0⟩, ⟨50, 0⟩, ⟨72, 0⟩, ⟨144, 0⟩) := by
  rw [hasImage_iff] at h
  match j, h with
  | 0, h => cases h; exact .inl ⟨rfl, rfl, rfl⟩
  | 1, h => cases h
  | 2, h => cases h; exact .inr (.inl ⟨rfl, rfl, rfl⟩)
  | 3, h => cases h; exact .inr (.inr ⟨rfl, rfl, rfl⟩)
  | n + 4, h => cases h

theorem sampleSaver_works : SaveWorks sampleSaver fun _ _ => False where
  ints := fun _ => rfl
  inflate := fun _ _ h => h.elim
  base := by rintro ⟨r, h⟩; cases h
  opens := fun _ _ _ _ _ => rfl

theorem sampleGray_big : FileOf sampleSaver.objects (fun _ _ => False) sampleGray.1 sampleGray.2 (sampleSaver.floats 0 0 = (false, false)) ⟨100, 0⟩ ⟨0, 0⟩ ⟨0, 0⟩ ⟨50, 0⟩ ⟨72, 0⟩ ⟨144, 0⟩
    (pstr ".b8w100h50.img") (· = [0, 255, 255, 0]) := by
  have h := FileOf.data (R := sampleSaver.objects) (deflated := fun _ _ => False) (attrs := sampleGray.1) (raw := sampleGray.2) (whole := sampleSaver.floats 0 0 = (false, false))
    (a := ⟨100, 0⟩) (b := ⟨0, 0⟩) (c := ⟨0, 0⟩) (d := ⟨50, 0⟩) (e := ⟨72, 0⟩) (f := ⟨144, 0⟩) (stages := []) (plain := [0, 255, 255, 0]) (bits := 8)
    ⟨by decide, none, none, .inl ⟨by decide, by decide⟩, .inl ⟨by decide, by decide⟩, .inl ⟨rfl, rfl⟩⟩ (by simp) .nil
    ⟨some (.int 8), .inr ⟨by decide, by simp, by decide⟩, .inl rfl⟩ (by omega)
    (by simp only [OnSheet, Dec.val, Box, INF]; norm_num)
  have e1 : ⌊across ⟨100, 0⟩ ⟨0, 0⟩⌋₊ = 100 := by
    have : across ⟨100, 0⟩ ⟨0, 0⟩ = ((100 : Nat) : ℚ) := by simp only [across, Dec.val]; norm_num
    rw [this, Nat.floor_natCast]
  have e2 : ⌊across ⟨0, 0⟩ ⟨50, 0⟩⌋₊ = 50 := by
    have : across ⟨0, 0⟩ ⟨50, 0⟩ = ((50 : Nat) : ℚ) := by simp only [across, Dec.val]; norm_num
    rw [this, Nat.floor_natCast]
  rw [e1, e2] at h
  have e3 : pstr ".b" ++ numText 8 ++ pstr "w" ++ numText 100 ++ pstr "h" ++ numText 50 ++ pstr ".img" = pstr ".b8w100h50.img" := by decide +kernel
  rw [e3] at h
  exact h

theorem sampleGray_small : FileOf sampleSaver.objects (fun _ _ => False) sampleGray.1 sampleGray.2 (sampleSaver.floats 0 2 = (false, false)) ⟨5, 1⟩ ⟨0, 0⟩ ⟨0, 0⟩ ⟨75, 1⟩ ⟨72, 0⟩ ⟨144, 0⟩
    (pstr ".b8w0h7.img") (· = [0, 255, 255, 0]) := by
  have h := FileOf.data (R := sampleSaver.objects) (deflated := fun _ _ => False) (attrs := sampleGray.1) (raw := sampleGray.2) (whole := sampleSaver.floats 0 2 = (false, false))
    (a := ⟨5, 1⟩) (b := ⟨0, 0⟩) (c := ⟨0, 0⟩) (d := ⟨75, 1⟩) (e := ⟨72, 0⟩) (f := ⟨144, 0⟩) (stages := []) (plain := [0, 255, 255, 0]) (bits := 8)
    ⟨by decide, none, none, .inl ⟨by decide, by decide⟩, .inl ⟨by decide, by decide⟩, .inl ⟨rfl, rfl⟩⟩ (by simp) .nil
    ⟨some (.int 8), .inr ⟨by decide, by simp, by decide⟩, .inl rfl⟩ (by omega)
    (by simp only [OnSheet, Dec.val, Box, INF]; norm_num)
  have e1 : ⌊across ⟨5, 1⟩ ⟨0, 0⟩⌋₊ = 0 := by
    rw [Nat.floor_eq_zero]
    simp only [across, Dec.val]; norm_num
  have e2 : ⌊across ⟨0, 0⟩ ⟨75, 1⟩⌋₊ = 7 := by
    rw [Nat.floor_eq_iff (across_nonneg _ _)]
    simp only [across, Dec.val]; norm_num
  rw [e1, e2] at h
  have e3 : pstr ".b" ++ numText 8 ++ pstr "w" ++ numText 0 ++ pstr "h" ++ numText 7 ++ pstr ".img" = pstr ".b8w0h7.img" := by decide +kernel
  rw [e3] at h
  exact h

theorem sampleJpeg_file : FileOf sampleSaver.objects (fun _ _ => False) sampleJpeg.1 sampleJpeg.2 (sampleSaver.floats 0 3 = (false, false)) ⟨100, 0⟩ ⟨0, 0⟩ ⟨0, 0⟩ ⟨50, 0⟩ ⟨72, 0⟩ ⟨144, 0⟩
    (pstr ".jpg") (· = [0xff, 0xd8, 0xff, 0xd9]) := by
  refine FileOf.jpeg (params := []) (co := some (.name (asc "DeviceRGB")))
    ⟨by decide, some (.name (asc "DCTDecode")), none, .inr ⟨by decide, by simp, by decide⟩, .inl ⟨by decide, by decide⟩,
      .inr ⟨[.name (asc "DCTDecode")], .cons ⟨"DCTDecode", by decide, rfl⟩ .nil, .inr ⟨_, rfl, rfl⟩, .inl ⟨rfl, by simp⟩⟩⟩ (.inr ⟨by decide, by simp, by decide⟩) ?_
  rintro ⟨co, h1, h2⟩
  have e1 : dictGet sampleJpeg.1 (nm "ColorSpace") = some (.name (asc "DeviceRGB")) := by decide
  rcases h1 with ⟨h1, _⟩ | ⟨h1, _, _⟩
  · rw [e1] at h1; cases h1
  · rw [e1] at h1
    cases h1
    rcases h2 with h2 | ⟨l, h2, _⟩
    · exact absurd h2 (by decide)
    · cases h2

/-- All three are saved, the small one with the width 0 in its name; nothing else is written. -/
example (F : Files) : ∃ F', F' (pstr "out/doc_p0i0.b8w100h50.img") = some [0, 255, 255, 0] ∧ F' (pstr "out/doc_p0i2.b8w0h7.img") = some [0, 255, 255, 0] ∧
    F' (pstr "out/doc_p0i3.jpg") = some [0xff, 0xd8, 0xff, 0xd9] ∧ F' (pstr "out/notes.txt") = F (pstr "out/notes.txt") ∧
    ∃ N, ∀ fuel ≥ N, saveAll sampleSaver sampleSetup {} fuel (writeDrawing helvetica [sampleGray, sampleJpeg] [sampleAlbum]) F = (F', none) := by
  have ha : asked ({} : Options).pagenos 0 [sampleAlbum] = [sampleAlbum] := by simp [asked, Wanted]
  have h0 : ∀ {n p}, [sampleAlbum][n]? = some p → n = 0 ∧ p = sampleAlbum := by
    intro n p h
    match n, h with
    | 0, h => cases h; exact ⟨rfl, rfl⟩
    | n + 1, h => cases h
  have m0 : [sampleGray, sampleJpeg][0]? = some (sampleGray.1, sampleGray.2) := rfl
  have m1 : [sampleGray, sampleJpeg][1]? = some (sampleJpeg.1, sampleJpeg.2) := rfl
  obtain ⟨F', k1, k2, k3⟩ := ascii_images_saved sampleSetup sample_furnished {} [sampleGray, sampleJpeg]
    (by
      intro i hi
      simp only [List.mem_cons, List.not_mem_nil, or_false] at hi
      rcases hi with rfl | rfl
      · exact sampleGray_image
      · exact sampleJpeg_image) [sampleAlbum]
    (by
      intro p hp m hm
      rw [List.mem_singleton.1 hp] at hm
      simp only [sampleAlbum, List.mem_cons, List.not_mem_nil, or_false] at hm
      rcases hm with rfl | rfl | rfl | rfl | rfl
      · trivial
      · exact Nat.zero_lt_two
      · exact ⟨by decide, by decide⟩
      · exact Nat.zero_lt_two
      · exact Nat.one_lt_two) 0 rfl (by rw [ha]; simp) sampleSaver (fun _ _ => False) sampleSaver_works
    (by
      rw [ha]
      intro n p hn
      obtain ⟨rfl, rfl⟩ := h0 hn
      intro j i a b c d e f hi attrs raw him
      rcases sampleAlbum_has hi with ⟨rfl, rfl, h⟩ | ⟨rfl, rfl, h⟩ | ⟨rfl, rfl, h⟩ <;> cases h
      · rw [m0] at him; cases him; exact ⟨_, _, sampleGray_big⟩
      · rw [m0] at him; cases him; exact ⟨_, _, sampleGray_small⟩
      · rw [m1] at him; cases him; exact ⟨_, _, sampleJpeg_file⟩)
    (by
      rw [ha]
      intro n n' p p' hn hn' j j' i i' a b c d e f a' b' c' d' e' f' hi hi' ho
      obtain ⟨rfl, rfl⟩ := h0 hn
      obtain ⟨rfl, rfl⟩ := h0 hn'
      rcases sampleAlbum_has hi with ⟨rfl, rfl, _⟩ | ⟨rfl, rfl, _⟩ | ⟨rfl, rfl, _⟩ <;> rcases sampleAlbum_has hi' with ⟨rfl, rfl, _⟩ | ⟨rfl, rfl, _⟩ | ⟨rfl, rfl, _⟩ <;>
        first | rfl | exact absurd ho (by decide)) F
  rw [ha] at k1 k2
  have hd : ∀ {file path}, InDir (pstr "out") file path → path = pstr "out/" ++ file := by
    intro file path h
    rw [inDir_eq h, if_neg (by decide)]
    rfl
  refine ⟨F', ?_, ?_, ?_, ?_, k3⟩
  · obtain ⟨attrs, raw, path, file, h1, h2, h3⟩ := k1 0 sampleAlbum rfl 0 0 _ _ _ _ _ _ (hasImage_iff.2 rfl)
    cases h1
    obtain ⟨h4, h5⟩ := h3 _ _ sampleGray_big
    rw [← h5, ← h2, hd h4]
    exact congrArg F' (by decide +kernel)
  · obtain ⟨attrs, raw, path, file, h1, h2, h3⟩ := k1 0 sampleAlbum rfl 2 0 _ _ _ _ _ _ (hasImage_iff.2 rfl)
    cases h1
    obtain ⟨h4, h5⟩ := h3 _ _ sampleGray_small
    rw [← h5, ← h2, hd h4]
    exact congrArg F' (by decide +kernel)
  · obtain ⟨attrs, raw, path, file, h1, h2, h3⟩ := k1 0 sampleAlbum rfl 3 1 _ _ _ _ _ _ (hasImage_iff.2 rfl)
    cases h1
    obtain ⟨h4, h5⟩ := h3 _ _ sampleJpeg_file
    rw [← h5, ← h2, hd h4]
    exact congrArg F' (by decide +kernel)
  · by_contra hne
    obtain ⟨n, p, j, i, a, b, c, d, e, f, _, _, ext, h⟩ := k2 _ hne
    have := congrArg (fun l => l[4]?) (hd h)
    simp only [imageFile, List.append_assoc] at this
    exact absurd this (by show some (110 : Nat) ≠ some 100; decide)

/-- An image with the TIFF predictor, which is not supported. -/
def sampleTiff : List (Key × Obj) × Bytes :=
  ([(nm "Subtype", .name (asc "Image")), (nm "Width", .int 1), (nm "Height", .int 1), (nm "BitsPerComponent", .int 8), (nm "Filter", .name (asc "AHx")),
    (nm "DecodeParms", .dict [(nm "Predictor", .int 2)]), (nm "Length", .int 3)], asc "02>")

theorem sampleTiff_image : IsImage sampleTiff := by
  refine ⟨⟨⟨?_, ?_⟩, ?_, ?_⟩, by decide, by decide, by decide⟩
  · show [nm "Subtype", nm "Width", nm "Height", nm "BitsPerComponent", nm "Filter", nm "DecodeParms", nm "Length"].Nodup
    decide
  · refine ⟨⟨_, rfl⟩, trivial, ⟨_, rfl⟩, trivial, ⟨_, rfl⟩, trivial, ⟨_, rfl⟩, trivial, ⟨_, rfl⟩, trivial, ⟨_, rfl⟩, ⟨?_, ⟨_, rfl⟩, trivial, trivial⟩, ⟨_, rfl⟩, trivial, trivial⟩
    show [nm "Predictor"].Nodup
    decide
  · decide
  · intro h
    exact absurd (h.subset (show (101 : UInt8) ∈ asc "endstream" by decide)) (by decide)

/-- A page with the gray picture and this image. -/
def sampleTorn : Leaf :=
  ⟨⟨612, 0⟩, ⟨792, 0⟩, [.image 0 ⟨100, 0⟩ ⟨0, 0⟩ ⟨0, 0⟩ ⟨50, 0⟩ ⟨72, 0⟩ ⟨144, 0⟩, .image 1 ⟨5, 1⟩ ⟨0, 0⟩ ⟨0, 0⟩ ⟨75, 1⟩ ⟨72, 0⟩ ⟨144, 0⟩]⟩

/-- The first image is saved, then there is an exception. -/
example (F : Files) : ∃ F' y, F' (pstr "out/doc_p0i0.b8w100h50.img") = some [0, 255, 255, 0] ∧
    ∃ N, ∀ fuel ≥ N, saveAll { sampleSaver with holds := fun _ j => j } sampleSetup {} fuel (writeDrawing helvetica [sampleGray, sampleTiff] [sampleTorn]) F = (F', some y) := by
  have ha : asked ({} : Options).pagenos 0 [sampleTorn] = [sampleTorn] := by simp [asked, Wanted]
  have h0 : ∀ {n p}, [sampleTorn][n]? = some p → n = 0 ∧ p = sampleTorn := by
    intro n p h
    match n, h with
    | 0, h => cases h; exact ⟨rfl, rfl⟩
    | n + 1, h => cases h
  have hh : ∀ {j i : Nat} {a b c d e f : Dec}, HasImage sampleTorn j i a b c d e f →
      j = i ∧ (j = 0 → (a, b, c, d, e, f) = (⟨100, 0⟩, ⟨0, 0⟩, ⟨0, 0⟩, ⟨50, 0⟩, ⟨72, 0⟩, ⟨144, 0⟩)) := by
    intro j i a b c d e f h
    rw [hasImage_iff] at h
    match j, h with
    | 0, h => cases h; exact ⟨rfl, fun _ => rfl⟩
    | 1, h => cases h; exact ⟨rfl, nofun⟩
    | n + 2, h => cases h
  obtain ⟨f, h1, h2⟩ := helvetica_built sampleSetup sample_furnished (fileResolver (numbered 1 (drawObjs helvetica [sampleGray, sampleTiff] [sampleTorn]))) (fileResolver_direct _)
  obtain ⟨F', y, k1, k2⟩ := images_until sampleSetup sample_furnished.bufsiz {} helvetica helvetica_wf [sampleGray, sampleTiff]
    (by
      intro i hi
      simp only [List.mem_cons, List.not_mem_nil, or_false] at hi
      rcases hi with rfl | rfl
      · exact sampleGray_image
      · exact sampleTiff_image) [sampleTorn] 1 f h1
    (by
      intro p hp m hm
      rw [List.mem_singleton.1 hp] at hm
      simp only [sampleTorn, List.mem_cons, List.not_mem_nil, or_false] at hm
      rcases hm with rfl | rfl
      · exact Nat.zero_lt_two
      · exact Nat.one_lt_two) 0 rfl (by rw [ha]; simp) { sampleSaver with holds := fun _ j => j } (fun _ _ => False)
    ⟨sampleSaver_works.ints, sampleSaver_works.inflate, sampleSaver_works.base, sampleSaver_works.opens⟩
    (by
      rw [ha]
      intro n n' p p' hn hn' j j' i i' a b c d e f a' b' c' d' e' f' hi hi' ho
      obtain ⟨rfl, rfl⟩ := h0 hn
      obtain ⟨rfl, rfl⟩ := h0 hn'
      rw [← (hh hi).1, ← (hh hi').1]
      exact ho) F (n := 0) (p := sampleTorn) (by rw [ha]; rfl) (j := 1) (i := 1) (hasImage_iff.2 rfl) (attrs := sampleTiff.1) (raw := sampleTiff.2) rfl
    (stages := [(.asciiHex, [(nm "Predictor", .int 2)])])
    ⟨by decide, some (.name (asc "AHx")), some (.dict [(nm "Predictor", .int 2)]), .inr ⟨by decide, by simp, by decide⟩, .inr ⟨by decide, by simp, by decide⟩,
      .inr ⟨[.name (asc "AHx")], .cons ⟨"AHx", by decide, rfl⟩ .nil, .inr ⟨_, rfl, rfl⟩, .inr (.inl ⟨_, rfl, rfl⟩)⟩⟩ (by decide) (x := .nameError) (by decide +kernel)
    (by
      rw [ha]
      intro n' p hp j' hlt i a b c d e f hi attrs raw him
      obtain ⟨rfl, rfl⟩ := h0 hp
      obtain ⟨rfl, h3⟩ := hh hi
      obtain rfl : j' = 0 := by omega
      cases h3 rfl
      cases him
      exact ⟨_, _, sampleGray_big⟩)
  rw [ha] at k1
  refine ⟨F', y, ?_, k2⟩
  obtain ⟨attrs, raw, path, file, m1, m2, m3⟩ := k1 0 sampleTorn rfl 0 (by omega) 0 _ _ _ _ _ _ (hasImage_iff.2 rfl)
  cases m1
  obtain ⟨m4, m5⟩ := m3 _ _ sampleGray_big
  rw [← m5, ← m2, inDir_eq m4, if_neg (by decide)]
  exact congrArg F' (by decide +kernel)

end Pdf

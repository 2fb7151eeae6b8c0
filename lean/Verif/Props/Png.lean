import Verif.Proofs.Png
/-! Properties C05 (PNG predictor) and C07 (nunpack). -/

namespace Pdf.Props
open Pdf Pdf.Spec

/-- The images for which the code is right: with one colour, any mix of None, Sub and Up; with more
colours, None and Up, the first row not being Up. -/
def PngSupported (colors : Nat) (rows : List (PngFilter × Bytes)) : Prop :=
  if colors = 1 then ∀ r ∈ rows, r.1 = .none ∨ r.1 = .sub ∨ r.1 = .up
  else (∀ r ∈ rows, r.1 = .none ∨ r.1 = .up) ∧ ∀ r ∈ rows.head?, r.1 = .none

/-- **C05** (proved part). For 8-bit components, the predictor undoes PNG row filtering of every image
whose rows are filtered by supported filters (`PngSupported`), for every width and number of rows.
Missing: Average, Paeth, Sub with several colours and Up in the first row with several colours, for which
the code is wrong (counterexamples below). -/
theorem png_predictor_partial (colors columns : Nat) (rows : List (PngFilter × Bytes))
    (hs : PngSupported colors rows) (hl : ∀ r ∈ rows, r.2.length = colors * columns) :
    applyPngPredictor colors columns 8
      (pngEncode colors (List.replicate (colors * columns) 0) rows) = .ok (rows.flatMap (·.2)) := by
  unfold applyPngPredictor
  rw [if_neg (by simp), show colors * columns * 8 / 8 = colors * columns by omega]
  generalize hn : colors * columns = n at hl
  have loop : ∀ (rows : List (PngFilter × Bytes)) (prior buf : Bytes), prior.length = n →
      (∀ r ∈ rows, r.2.length = n) →
      (∀ r ∈ rows, r.1 = .none ∨ (colors = 1 ∧ r.1 = .sub) ∨ r.1 = .up) →
      pngRows n (pngEncode colors prior rows) prior buf = .ok (buf ++ rows.flatMap (·.2)) := by
    intro rows
    induction rows with
    | nil => intro prior buf _ _ _; simp [pngEncode, pngRows]
    | cons r rs ih =>
      intro prior buf hp hl hf
      obtain ⟨f, row⟩ := r
      have hlen := hl (f, row) List.mem_cons_self
      simp only at hlen
      rw [pngEncode, pngRows_step n f colors prior prior row _ buf hlen]
      · rw [ih row (buf ++ row) hlen (fun r hr => hl r (List.mem_cons_of_mem _ hr))
          (fun r hr => hf r (List.mem_cons_of_mem _ hr))]
        simp
      · rcases hf (f, row) List.mem_cons_self with h | ⟨h1, h⟩ | h <;> simp only at h <;> subst h
        · simp [PngFilter.code, pngRow, filterRow_none]
        · subst h1
          simp only [PngFilter.code, pngRow, filterRow_sub]
          simpa using pngSub_diffs row 0
        · simp only [PngFilter.code, pngRow]
          simpa using pngUp_filter colors prior row (by omega)
  by_cases hc : colors = 1
  · simp only [PngSupported, hc, if_true] at hs
    subst hc
    have : columns = n := by omega
    subst this
    rw [loop rows _ [] (by simp) hl (fun r hr => by
      rcases hs r hr with h | h | h <;> simp [h])]
    simp
  · simp only [PngSupported, hc, if_false] at hs
    cases rows with
    | nil => simp [pngEncode, pngRows]
    | cons r rs =>
      obtain ⟨f, row⟩ := r
      have hf : f = .none := hs.2 (f, row) (by simp)
      subst hf
      have hlen := hl (.none, row) List.mem_cons_self
      simp only at hlen
      rw [pngEncode, pngRows_step n .none colors _ _ row _ [] hlen (by simp [PngFilter.code, pngRow, filterRow_none])]
      rw [loop rs row _ hlen (fun r hr => hl r (List.mem_cons_of_mem _ hr)) (fun r hr => by
        rcases hs.1 r (List.mem_cons_of_mem _ hr) with h | h <;> simp [h])]
      simp

example : PngSupported 1 [(.sub, [1, 2, 250]), (.up, [9, 9, 9]), (.none, [0, 0, 1])] := by
  simp [PngSupported]

/-- A row with an unknown filter type (Paeth included) raises `ValueError` whatever came before. -/
theorem png_unsupported_rejected (nbytes : Nat) (ft : UInt8) (rest line0 buf : Bytes) (h : 4 ≤ ft) :
    pngRows nbytes (ft :: rest) line0 buf = .error .valueError := by
  have : ∀ k : UInt8, k < 4 → ft ≠ k := by
    intro k hk he; subst he
    rw [UInt8.lt_iff_toNat_lt] at hk; rw [UInt8.le_iff_toNat_le] at h; omega
  rw [pngRows, pngRow, if_neg (this 0 (by decide)), if_neg (this 1 (by decide)), if_neg (this 2 (by decide)),
    if_neg (this 3 (by decide))]
  rfl

/-- C05 is false of the code for Average rows: the row `[10]` does not come back. -/
theorem png_average_counterexample :
    applyPngPredictor 1 1 8 (pngEncode 1 [0] [(.average, [10])]) ≠ .ok [10] := by decide +kernel

/-- C05 is false of the code for Sub rows with three colours. -/
theorem png_sub_rgb_counterexample :
    applyPngPredictor 3 2 8 (pngEncode 3 (List.replicate 6 0) [(.sub, [1, 2, 3, 1, 2, 3])]) ≠
      .ok [1, 2, 3, 1, 2, 3] := by decide +kernel

/-- C05 is false of the code for a first Up row with several colours: the row is truncated to `columns` bytes. -/
theorem png_up_rgb_counterexample :
    applyPngPredictor 3 1 8 (pngEncode 3 (List.replicate 3 0) [(.up, [1, 2, 3])]) = .ok [1] := by decide +kernel

/-- **C07.** On the supported lengths `nunpack` is the big-endian value; the empty string gives the
default; every other length raises `TypeError`. -/
theorem nunpack_value (s : Bytes) (default : Nat) :
    nunpack s default =
      if s.length = 0 then .ok default
      else if s.length ≤ 4 ∨ s.length = 8 then .ok (beValue s)
      else .error .typeError := by
  match s with
  | [] => rfl
  | [a] => simp [nunpack, beValue]
  | [a, b] => simp [nunpack, beValue]
  | [a, b, c] => simp [nunpack, beValue]; omega
  | [a, b, c, d] => simp [nunpack, beValue]; omega
  | [a, b, c, d, e] => simp [nunpack]
  | [a, b, c, d, e, f] => simp [nunpack]
  | [a, b, c, d, e, f, g] => simp [nunpack]
  | [a, b, c, d, e, f, g, h] => simp [nunpack, beValue]; omega
  | a :: b :: c :: d :: e :: f :: g :: h :: i :: t => simp [nunpack]

/-- `nunpack` never returns a value that does not fit the number of bytes. -/
theorem nunpack_bound (s : Bytes) (v : Nat) (hs : s ≠ []) (h : nunpack s = .ok v) : v < 256 ^ s.length := by
  have hb : ∀ s : Bytes, beValue s < 256 ^ s.length := by
    have gen : ∀ (s : Bytes) (v : Nat), s.foldl (fun v b => v * 256 + b.toNat) v < (v + 1) * 256 ^ s.length := by
      intro s
      induction s with
      | nil => intro v; simp
      | cons b bs ih =>
        intro v
        have hb := b.toNat_lt
        refine Nat.lt_of_lt_of_le (ih (v * 256 + b.toNat)) ?_
        rw [List.length_cons, Nat.pow_succ, Nat.mul_comm (256 ^ bs.length), ← Nat.mul_assoc]
        exact Nat.mul_le_mul_right _ (by omega)
    intro s
    simpa [beValue] using gen s 0
  rw [nunpack_value] at h
  rw [if_neg (by cases s <;> simp_all)] at h
  split at h
  · cases h; exact hb s
  · cases h

example : nunpack [1, 2, 3] = .ok 66051 := rfl

end Pdf.Props

import Verif.Model.Png
import Verif.Spec.Png

namespace Pdf
open Spec

theorem ofNat_add_mod (a b : UInt8) : UInt8.ofNat ((a.toNat + b.toNat) % 256) = a + b := by
  apply UInt8.toNat_inj.mp
  simp [UInt8.toNat_add]

/-- Differences of neighbouring bytes. -/
def diffs : UInt8 → Bytes → Bytes
  | _, [] => []
  | c, r :: rs => (r - c) :: diffs r rs

theorem diffs_length (c : UInt8) (row : Bytes) : (diffs c row).length = row.length := by
  induction row generalizing c with
  | nil => rfl
  | cons r rs ih => simp [diffs, ih]

theorem diffs_getElem (row : Bytes) (c : UInt8) (i : Nat) (h : i < row.length) :
    (diffs c row)[i]'(by rw [diffs_length]; exact h) = row[i] - (if i = 0 then c else row.getD (i - 1) 0) := by
  induction row generalizing c i with
  | nil => simp at h
  | cons r rs ih =>
    cases i with
    | zero => simp [diffs]
    | succ i =>
      simp only [List.length_cons, Nat.add_lt_add_iff_right] at h
      simp only [diffs, List.getElem_cons_succ]
      rw [ih r i h]
      cases i with
      | zero => simp
      | succ i => simp

theorem pngSub_diffs (row : Bytes) (c : UInt8) : pngSub c.toNat (diffs c row) = row := by
  induction row generalizing c with
  | nil => rfl
  | cons r rs ih =>
    have e : (c.toNat + (r - c).toNat) % 256 = r.toNat := by
      have := congrArg UInt8.toNat (UInt8.sub_add_cancel r c)
      rw [UInt8.toNat_add] at this
      rw [Nat.add_comm]; exact this
    simp only [diffs, pngSub, e, ih]
    simp

theorem filterRow_length (f bpp prior row) : (filterRow f bpp prior row).length = row.length := by
  simp [filterRow]

theorem filterRow_sub (prior row : Bytes) : filterRow .sub 1 prior row = diffs 0 row := by
  apply List.ext_getElem
  · rw [diffs_length, filterRow_length]
  · intro i h1 h2
    have h : i < row.length := by rw [filterRow_length] at h1; exact h1
    rw [diffs_getElem row 0 i h]
    simp only [filterRow, List.getElem_map, List.getElem_range, predict, left]
    congr 1
    · simp [List.getD, h]
    · by_cases hi : i = 0
      · simp [hi]
      · rw [if_neg (by omega), if_neg hi]

theorem filterRow_none (bpp : Nat) (prior row : Bytes) : filterRow .none bpp prior row = row := by
  apply List.ext_getElem
  · simp [filterRow]
  · intro i h1 h2
    simp [filterRow, predict, List.getD, h2]

theorem pngUp_length (a b : Bytes) : (pngUp a b).length = min a.length b.length := by
  induction a generalizing b with
  | nil => simp [pngUp]
  | cons x xs ih => cases b with
    | nil => simp [pngUp]
    | cons y ys => simp [pngUp, ih]

theorem pngUp_getElem (a b : Bytes) (i : Nat) (h : i < (pngUp a b).length) :
    (pngUp a b)[i] = a[i]'(by rw [pngUp_length] at h; omega) + b[i]'(by rw [pngUp_length] at h; omega) := by
  induction a generalizing b i with
  | nil => simp [pngUp] at h
  | cons x xs ih => cases b with
    | nil => simp [pngUp] at h
    | cons y ys =>
      cases i with
      | zero => simp only [pngUp, List.getElem_cons_zero]; exact ofNat_add_mod x y
      | succ i =>
        simp only [pngUp, List.getElem_cons_succ]
        exact ih ys i (by simpa [pngUp] using h)

theorem pngUp_filter (bpp : Nat) (prior row : Bytes) (h : row.length ≤ prior.length) :
    pngUp prior (filterRow .up bpp prior row) = row := by
  apply List.ext_getElem
  · rw [pngUp_length, filterRow_length]; omega
  · intro i h1 h2
    rw [pngUp_getElem]
    simp only [filterRow, List.getElem_map, List.getElem_range, predict]
    have hp : i < prior.length := by omega
    simp only [List.getD, List.getElem?_eq_getElem h2, List.getElem?_eq_getElem hp, Option.getD_some]
    rw [UInt8.add_comm, UInt8.sub_add_cancel]

/-- One row, generically: if each row filter is undone, so is the image. -/
theorem pngRows_step (nbytes : Nat) (f : PngFilter) (bpp : Nat) (prior line0 row rest buf : Bytes)
    (hlen : row.length = nbytes) (hrow : pngRow f.code line0 (filterRow f bpp prior row) = .ok row) :
    pngRows nbytes (f.code :: filterRow f bpp prior row ++ rest) line0 buf = pngRows nbytes rest row (buf ++ row) := by
  rw [List.cons_append, pngRows]
  have hl : (filterRow f bpp prior row).length = nbytes := by rw [filterRow_length, hlen]
  rw [List.take_left' hl, List.drop_left' hl, hrow]
  rfl

theorem beValue_append (s : Bytes) (b : UInt8) : beValue (s ++ [b]) = beValue s * 256 + b.toNat := by
  simp [beValue]

end Pdf

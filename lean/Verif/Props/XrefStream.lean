import Verif.Props.Sections
import Verif.Props.Png
import Verif.Spec.XrefStream
/-! C24: cross-reference streams. -/

namespace Pdf
open Spec Props

variable {σ : Type}

/-- What `get_pos` must answer. -/
def placePos : Place → Except PyErr XPos
  | .offset pos gen => .ok (none, pos, gen)
  | .inStream objstm index => .ok (some (objstm : Int), index, 0)
  | .free => .error .keyError
  | .unknown => .error .keyError

/-- A width that the code can read. -/
def Width (w : Nat) : Prop := w ≤ 4 ∨ w = 8

/-- A cross-reference stream with the given ranges, widths and rows. -/
structure XStream.Holds (x : XStream) (ranges : List (Nat × Nat)) (w1 w2 w3 : Nat) (rows : List XRow) : Prop where
  ranges : x.ranges = ranges.map fun r => ((r.1 : Int), (r.2 : Int))
  fl1 : x.fl1 = w1
  fl2 : x.fl2 = w2
  fl3 : x.fl3 = w3
  width1 : Width w1
  width2 : Width w2
  width3 : Width w3
  fits : ∀ r ∈ rows, r.Fits w1 w2 w3
  data : x.data = (rows.map XRow.bytes).flatten

theorem sliceIdx_nat (len i : Nat) : sliceIdx len (i : Int) = min i len := by
  unfold sliceIdx
  rw [if_neg (by omega), Int.toNat_natCast]

theorem pySlice_nat {α} (s : List α) (i j : Nat) : pySlice s (i : Int) (j : Int) = (s.drop i).take (j - i) := by
  unfold pySlice
  rw [sliceIdx_nat, sliceIdx_nat]
  by_cases h : i ≤ s.length
  · rw [Nat.min_eq_left h]
    by_cases hj : j ≤ s.length
    · rw [Nat.min_eq_left hj]
    · rw [Nat.min_eq_right (by omega), List.take_of_length_le (by simp), List.take_of_length_le (by simp; omega)]
  · rw [Nat.min_eq_right (show s.length ≤ i by omega), List.drop_eq_nil_of_le (Nat.le_refl _), List.drop_eq_nil_of_le (by omega)]
    simp

theorem rows_drop {w : Nat} (rows : List XRow) (h : ∀ r ∈ rows, r.bytes.length = w) (k : Nat) :
    ((rows.map XRow.bytes).flatten.drop (w * k)).take w = ((rows.drop k).head?.map XRow.bytes).getD [] := by
  induction k generalizing rows with
  | zero =>
    cases rows with
    | nil => simp
    | cons r rs =>
      have := h r (by simp)
      subst this
      simp
  | succ k ih =>
    cases rows with
    | nil => simp
    | cons r rs =>
      have hr := h r (by simp)
      rw [List.map_cons, List.flatten_cons, Nat.mul_succ, Nat.add_comm, ← List.drop_drop, ← hr, List.drop_left, hr,
        ih rs fun x hx => h x (by simp [hx])]
      rfl

theorem XStream.Holds.ent {x : XStream} {ranges w1 w2 w3 rows} (h : x.Holds ranges w1 w2 w3 rows) {k : Nat} {r : XRow} (hr : rows[k]? = some r) :
    x.ent (k : Int) = r.bytes := by
  unfold XStream.ent XStream.entlen
  rw [h.fl1, h.fl2, h.fl3]
  have h1 : ((w1 : Int) + w2 + w3) * k = (((w1 + w2 + w3) * k : Nat) : Int) := by simp
  have h2 : (((w1 + w2 + w3) * k : Nat) : Int) + ((w1 : Int) + w2 + w3) = (((w1 + w2 + w3) * k + (w1 + w2 + w3) : Nat) : Int) := by simp
  rw [h1, h2, pySlice_nat, Nat.add_sub_cancel_left, h.data, rows_drop]
  · rw [List.head?_drop, hr]; rfl
  · intro r hr
    obtain ⟨a, b, c⟩ := h.fits r hr
    simp [XRow.bytes, a, b, c]; omega

theorem row_slices {w1 w2 w3 : Nat} {r : XRow} (h : r.Fits w1 w2 w3) :
    pySlice r.bytes 0 (w1 : Int) = r.f1 ∧ pySlice r.bytes (w1 : Int) ((w1 : Int) + w2) = r.f2 ∧
      pySlice r.bytes ((w1 : Int) + w2) r.bytes.length = r.f3 := by
  obtain ⟨rfl, rfl, rfl⟩ := h
  refine ⟨?_, ?_, ?_⟩
  · rw [show (0 : Int) = ((0 : Nat) : Int) from rfl, pySlice_nat]; simp [XRow.bytes]
  · rw [show (r.f1.length : Int) + r.f2.length = ((r.f1.length + r.f2.length : Nat) : Int) by simp, pySlice_nat]; simp [XRow.bytes]
  · rw [show (r.f1.length : Int) + r.f2.length = ((r.f1.length + r.f2.length : Nat) : Int) by simp, pySlice_nat]
    unfold XRow.bytes
    rw [← List.length_append, List.drop_left, List.take_of_length_le (by simp; omega)]

theorem nunpack_width {s : Bytes} (h : Width s.length) (d : Nat) : nunpack s d = .ok (if s = [] then d else beValue s) := by
  rw [nunpack_value]
  by_cases hs : s = []
  · subst hs; rfl
  · rw [if_neg (by simpa using hs), if_pos (show s.length ≤ 4 ∨ s.length = 8 from h), if_neg hs]

/-- The index of the first entry for object `i`. -/
theorem findRange_some (ranges : List (Nat × Nat)) (i k : Nat) (acc : Nat) (h : (objNums ranges)[k]? = some i) (hf : i ∉ (objNums ranges).take k) :
    findRange i acc (ranges.map fun r => ((r.1 : Int), (r.2 : Int))) = some ((acc + k : Nat) : Int) := by
  induction ranges generalizing k acc with
  | nil => simp [objNums] at h
  | cons r rs ih =>
    obtain ⟨a, n⟩ := r
    rw [objNums] at h hf
    rw [List.map_cons]
    dsimp only [findRange]
    by_cases hk : k < n
    · rw [List.getElem?_append_left (by simpa using hk)] at h
      rw [List.getElem?_range' (by simpa using hk)] at h
      simp at h
      rw [if_pos (by omega)]
      congr 1; omega
    · rw [List.getElem?_append_right (by simp; omega)] at h
      rw [List.take_append, List.take_of_length_le (by simp; omega)] at hf
      simp only [List.length_range', List.mem_append, not_or, List.mem_range'_1] at h hf
      rw [if_neg (by omega), show ((acc : Int) + (n : Int)) = ((acc + n : Nat) : Int) by simp, ih (k - n) (acc + n) h hf.2]
      congr 2; omega

theorem findRange_none (ranges : List (Nat × Nat)) (i : Int) (acc : Int) (h : ∀ k ∈ objNums ranges, (k : Int) ≠ i) :
    findRange i acc (ranges.map fun r => ((r.1 : Int), (r.2 : Int))) = none := by
  induction ranges generalizing acc with
  | nil => rfl
  | cons r rs ih =>
    obtain ⟨a, n⟩ := r
    rw [List.map_cons]
    dsimp only [findRange]
    rw [if_neg, ih _ fun k hk => h k (by simp [objNums, hk])]
    intro hc
    refine h i.toNat ?_ (by omega)
    rw [objNums, List.mem_append, List.mem_range'_1]
    omega

/-- C24. The entry of an object is the row of its first mention in the ranges, whatever the ranges (any number, also
overlapping) and the widths. -/
theorem xstream_pos {x : XStream} {ranges w1 w2 w3 rows} (h : x.Holds ranges w1 w2 w3 rows) (k i : Nat) (r : XRow)
    (hi : (objNums ranges)[k]? = some i) (hf : i ∉ (objNums ranges).take k) (hr : rows[k]? = some r) : x.getPos i = placePos r.place := by
  unfold XStream.getPos
  rw [h.ranges, show (0 : Int) = ((0 : Nat) : Int) from rfl, findRange_some ranges i k 0 hi hf]
  dsimp only
  rw [Nat.zero_add, h.ent hr]
  obtain ⟨s1, s2, s3⟩ := row_slices (h.fits r (List.mem_of_getElem? hr))
  obtain ⟨l1, l2, l3⟩ := h.fits r (List.mem_of_getElem? hr)
  unfold XStream.kind
  rw [h.fl1, h.fl2, s1, s2, s3, nunpack_width (by rw [l1]; exact h.width1), nunpack_width (by rw [l2]; exact h.width2),
    nunpack_width (by rw [l3]; exact h.width3)]
  dsimp only
  have hz : ∀ s : Bytes, (if s = [] then 0 else beValue s) = beValue s := by
    intro s; split
    · rename_i h; subst h; rfl
    · rfl
  rw [hz, hz]
  unfold XRow.place
  show (if r.kind = 1 then _ else _) = _
  by_cases h1 : r.kind = 1
  · rw [if_pos h1, if_neg (by omega), if_pos h1]; rfl
  · rw [if_neg h1]
    show (if r.kind = 2 then _ else _) = _
    by_cases h2 : r.kind = 2
    · rw [if_pos h2, if_neg (by omega), if_neg h1, if_pos h2]; rfl
    · rw [if_neg h2, if_neg h1, if_neg h2]
      split <;> rfl

/-- C24. An object outside the ranges is not in the section. -/
theorem xstream_absent {x : XStream} {ranges w1 w2 w3 rows} (h : x.Holds ranges w1 w2 w3 rows) (i : Int) (hi : ∀ k ∈ objNums ranges, (k : Int) ≠ i) :
    x.getPos i = .error .keyError := by
  unfold XStream.getPos
  rw [h.ranges, findRange_none ranges i 0 hi]

/-- An object is listed if its row says it exists. -/
def XRow.used (r : XRow) : Bool := r.kind = 1 ∨ r.kind = 2

theorem objidsRange_ok {x : XStream} {ranges w1 w2 w3 rows} (h : x.Holds ranges w1 w2 w3 rows) (a n i : Nat) (hn : i + n ≤ rows.length) :
    x.objidsRange a n i = .ok ((((rows.drop i).take n).zipIdx i).filterMap fun (r, j) => if XRow.used r then some ((a : Int) + j) else none) := by
  induction n generalizing i with
  | zero => simp [XStream.objidsRange]
  | succ n ih =>
    obtain ⟨r, hr⟩ : ∃ r, rows[i]? = some r := ⟨rows[i], List.getElem?_eq_getElem (by omega)⟩
    have hd : rows.drop i = r :: rows.drop (i + 1) := by
      rw [List.drop_eq_getElem_cons (by omega)]
      rw [List.getElem?_eq_getElem (by omega)] at hr
      rw [Option.some.inj hr]
    unfold XStream.objidsRange
    rw [h.ent hr, ih (i + 1) (by omega), hd, List.take_succ_cons, List.zipIdx_cons, List.filterMap_cons]
    obtain ⟨s1, _, _⟩ := row_slices (h.fits r (List.mem_of_getElem? hr))
    obtain ⟨l1, _, _⟩ := h.fits r (List.mem_of_getElem? hr)
    unfold XStream.kind
    rw [h.fl1, s1, nunpack_width (by rw [l1]; exact h.width1)]
    dsimp only
    show Except.ok (if r.kind = 1 ∨ r.kind = 2 then _ else _) = _
    unfold XRow.used
    by_cases hu : r.kind = 1 ∨ r.kind = 2
    · simp [hu]
    · simp [hu]

/-- C24, listing the objects, for a single range: exactly the objects with a row of type 1 or 2. -/
theorem xstream_objids_partial {x : XStream} {a n w1 w2 w3 rows} (h : x.Holds [(a, n)] w1 w2 w3 rows) (hn : rows.length = n) :
    x.getObjids x.ranges = .ok ((rows.zipIdx).filterMap fun (r, j) => if XRow.used r then some ((a : Int) + j) else none) := by
  rw [h.ranges]
  simp only [List.map_cons, List.map_nil, XStream.getObjids, Int.toNat_natCast]
  rw [objidsRange_ok h a n 0 (by omega)]
  simp [← hn]

/-- C24 is false of `get_objids` with two ranges: object 7 is in use and not listed. -/
theorem xstream_objids_counterexample :
    ∃ x : XStream, x.Holds [(0, 1), (7, 1)] 1 1 1 [⟨[0], [0], [0]⟩, ⟨[1], [9], [0]⟩] ∧ x.getPos 7 = .ok (none, 9, 0) ∧ x.getObjids x.ranges = .ok [] := by
  refine ⟨⟨[(0, 1), (7, 1)], 1, 1, 1, [0, 0, 0, 1, 9, 0], []⟩, ⟨rfl, rfl, rfl, rfl, by simp [Width], by simp [Width], by simp [Width], ?_, rfl⟩,
    by decide +kernel, by decide +kernel⟩
  intro r hr
  simp only [List.mem_cons, List.not_mem_nil, or_false] at hr
  rcases hr with rfl | rfl <;> exact ⟨rfl, rfl, rfl⟩

end Pdf

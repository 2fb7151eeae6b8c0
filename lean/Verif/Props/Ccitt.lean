import Verif.Proofs.Ccitt4
import Verif.Spec.Filters
import Verif.Model.ObjEq
/-! C06, C83: the CCITT Group 4 decoder. -/

namespace Pdf
open Spec

theorem paramTrue_flag {params name on} (h : Spec.FaxFlag params name on) : paramTrue (paramGet params name) = on := by
  rcases h with h | ⟨h, rfl⟩
  · rw [paramGet, h]; simp [paramTrue, Obj.truthy]
  · rw [paramGet, h]; rfl

theorem ccitt_run {params w align blackIs1} (hp : FaxParams params w align blackIs1) (data : Bytes) :
    ccittfaxdecode data params = match G4.feedBytes data (G4.init w align blackIs1) with | .ok s => .ok s.buf | .error e => .error e := by
  rw [ccittfaxdecode, paramTrue_flag hp.align, paramTrue_flag hp.black, paramGet, paramGet, hp.k, hp.columns]
  rfl

/-- C06: from any Group 4 data for an image of any size the decoder recovers the image: all rows in their order, every row packed
most significant bit first and filled up to a whole number of bytes, with 0 for black pixels unless `BlackIs1` is set. The data may use
any of the modes that apply at a place, any make-up codes, `EncodedByteAlign` or not, and end with or without an end-of-block code. -/
theorem ccitt_recovers_image (w : Nat) (hw : 0 < w) (rows : List (List Bool)) (hrows : ∀ r ∈ rows, r.length = w) (align blackIs1 : Bool)
    (params : List (Key × Obj)) (hp : FaxParams params w align blackIs1) (data : Bytes) (h : Group4 align w rows data) :
    ∃ out, ccittfaxdecode data params = .ok out ∧ out.length = rows.length * ((w + 7) / 8) ∧ Unpacked blackIs1 w rows out := by
  obtain ⟨s, h1, h2⟩ := group4_feeds align blackIs1 w hw rows hrows data h
  refine ⟨s.buf, ?_, ?_, ?_⟩
  · rw [ccitt_run hp, h1]
  · rw [h2, packRows]
    clear h h1 h2
    induction rows with
    | nil => simp
    | cons r rows ih =>
      rw [List.flatMap_cons, List.length_append, packLine_length, ih (fun r h => hrows r (by simp [h])), List.length_cons, Nat.succ_mul]
      omega
  · rw [h2]; exact packRows_unpacked blackIs1 w rows hrows

/-- C06: there is Group 4 data for every image, so the theorem above is about every image. -/
theorem every_image_has_group4_data (align : Bool) (w : Nat) (hw : 0 < w) (rows : List (List Bool)) (hrows : ∀ r ∈ rows, r.length = w) :
    ∃ data, Group4 align w rows data := group4_exists align w hw rows hrows

/-- C06: a piece of data is the Group 4 code of at most one image of a given number of rows. -/
theorem group4_data_determines_image (w : Nat) (hw : 0 < w) (align : Bool) (rows rows' : List (List Bool))
    (hr : ∀ r ∈ rows, r.length = w) (hr' : ∀ r ∈ rows', r.length = w) (data : Bytes) (h : Group4 align w rows data)
    (h' : Group4 align w rows' data) : rows = rows' := by
  obtain ⟨s, h1, h2⟩ := group4_feeds align false w hw rows hr data h
  obtain ⟨s', h1', h2'⟩ := group4_feeds align false w hw rows' hr' data h'
  rw [h1] at h1'
  simp only [Except.ok.injEq] at h1'
  subst h1'
  have e : Unpacked false w rows s.buf := by rw [h2]; exact packRows_unpacked false w rows hr
  have e' : Unpacked false w rows' s.buf := by rw [h2']; exact packRows_unpacked false w rows' hr'
  have he := e.symm.trans e'
  clear h h' h1 h2 h2' e e'
  simp only [Bool.false_eq_true, if_false, List.map_id'] at he
  have key : ∀ rows rows' : List (List Bool), (∀ r ∈ rows, r.length = w) → (∀ r ∈ rows', r.length = w) →
      (rows.flatMap fun row => row ++ List.replicate (8 * ((w + 7) / 8) - w) false) =
        (rows'.flatMap fun row => row ++ List.replicate (8 * ((w + 7) / 8) - w) false) → rows = rows' := by
    intro rows
    induction rows with
    | nil =>
      intro rows' _ hr' he
      cases rows' with
      | nil => rfl
      | cons r rows' =>
        have := congrArg List.length he
        have hl := hr' r (by simp)
        simp only [List.flatMap_cons, List.length_append, List.flatMap_nil, List.length_nil] at this
        omega
    | cons r rows ih =>
      intro rows' hr hr' he
      have hl := hr r (by simp)
      cases rows' with
      | nil =>
        have := congrArg List.length he
        simp only [List.flatMap_cons, List.length_append, List.flatMap_nil, List.length_nil] at this
        omega
      | cons r' rows' =>
        have hl' := hr' r' (by simp)
        simp only [List.flatMap_cons, List.append_assoc] at he
        have e1 := List.append_inj he (by omega)
        have e2 := List.append_cancel_left e1.2
        rw [e1.1, ih rows' (fun r h => hr r (by simp [h])) (fun r h => hr' r (by simp [h])) e2]
  exact key rows rows' hr hr' he

/-! ### A concrete image: one row with a black bar, coded vertically, and a white row that passes under it -/

instance (row : List Bool) (i : Nat) : Decidable (Changing row i) := by unfold Changing; infer_instance

theorem firstRight_dec {P : Nat → Prop} {lo : Int} {w j : Nat} (h1 : ∀ i ∈ List.range j, lo < (i : Int) → ¬ P i)
    (h2 : lo < j ∧ j < w ∧ P j ∨ j = w) : FirstRight P lo w j := ⟨fun i h h' => h1 i (List.mem_range.mpr h') h, h2⟩

def sampleRows : List (List Bool) := [[true, false, false, true], [true, true, true, true]]

theorem sample_group4 : Group4 false 4 sampleRows [0x04, 0xA3] := by
  refine ⟨_, [], RowsCode.cons (row := [true, false, false, true]) (b := natBits 2 7 ++ (natBits 2 3 ++ (natBits 1 1 ++ [])))
      (RowCode.vertical (a1 := 1) (b1 := 4) (d := -3) (len := 7) (code := 2) (by decide) (firstRight_dec (by decide) (by decide))
        (firstRight_dec (by decide) (by decide)) (by decide) (by decide)
        (RowCode.vertical (a1 := 3) (b1 := 4) (d := -1) (len := 3) (code := 2) (by decide) (firstRight_dec (by decide) (by decide))
          (firstRight_dec (by decide) (by decide)) (by decide) (by decide)
          (RowCode.vertical (a1 := 4) (b1 := 4) (d := 0) (len := 1) (code := 1) (by decide) (firstRight_dec (by decide) (by decide))
            (firstRight_dec (by decide) (by decide)) (by decide) (by decide) .finished)))
      (RowsCode.cons (row := [true, true, true, true]) (b := natBits 1 4 ++ (natBits 1 1 ++ []))
        (RowCode.pass (a1 := 4) (b1 := 1) (b2 := 3) (by decide) (firstRight_dec (by decide) (by decide))
          (firstRight_dec (by decide) (by decide)) (firstRight_dec (by decide) (by decide)) (by decide)
          (RowCode.vertical (a1 := 4) (b1 := 4) (d := 0) (len := 1) (code := 1) (by decide) (firstRight_dec (by decide) (by decide))
            (firstRight_dec (by decide) (by decide)) (by decide) (by decide) .finished))
        .nil), by decide, Or.inr ⟨0, by decide, rfl⟩⟩

def sampleFax : List (Key × Obj) := [(.name (asc "K"), .int (-1)), (.name (asc "Columns"), .int 4)]

example : FaxParams sampleFax 4 false false := ⟨by decide, by decide, Or.inr (by decide), Or.inr (by decide)⟩
example : ccittfaxdecode [0x04, 0xA3] sampleFax = .ok [0x90, 0xF0] := by decide +kernel
example : ccittfaxdecode [0x04, 0xA3] (sampleFax ++ [(.name (asc "BlackIs1"), .bool true)]) = .ok [0x60, 0x00] := by decide +kernel

/-! ### Arbitrary data -/

/-- C83: whatever the data, the decoder either returns a whole number of rows or reports invalid data; nothing else is raised. -/
theorem ccitt_whole_rows_or_invalid (w : Nat) (hw : 0 < w) (align blackIs1 : Bool) (params : List (Key × Obj))
    (hp : FaxParams params w align blackIs1) (data : Bytes) :
    (∃ out, ccittfaxdecode data params = .ok out ∧ ∃ rows, out.length = rows * ((w + 7) / 8)) ∨
      ccittfaxdecode data params = .error .ccittInvalid := by
  rw [ccitt_run hp]
  rcases feedBytes_sound data _ w hw (sound_init w hw align blackIs1) with ⟨s, h1, h2⟩ | h1
  · rw [h1]
    exact Or.inl ⟨s.buf, rfl, s.buf.length / ((w + 7) / 8), by
      rw [Nat.div_mul_cancel (Nat.dvd_of_mod_eq_zero h2.buf)]⟩
  · rw [h1]; exact Or.inr rfl

/-- C83, limits: with no columns the decoder fails with an `IndexError` on data that has a mode code, instead of reporting invalid
data. -/
theorem ccitt_no_columns : ccittfaxdecode [0x80] [(.name (asc "K"), .int (-1)), (.name (asc "Columns"), .int 0)] = .error .indexError := by
  decide +kernel

/-- C06, limits: `Columns` is 1728 by default (PDF Reference 1.4, Table 3.9), but its absence is a `TypeError`. -/
theorem ccitt_default_columns_fails (data : Bytes) : ccittfaxdecode data [(.name (asc "K"), .int (-1))] = .error .typeError := by
  have h : isMinusOne (paramGet [(.name (asc "K"), .int (-1))] "K") = true := by decide +kernel
  have h2 : columns (paramGet [(.name (asc "K"), .int (-1))] "Columns") = .error .typeError := by
    have : paramGet [(.name (asc "K"), .int (-1))] "Columns" = none := by decide +kernel
    rw [this]; rfl
  rw [ccittfaxdecode, if_pos h, h2]

/-- C06, limits: Group 3 data (`K` zero or positive, or left out) is refused. -/
theorem ccitt_group3_refused (data : Bytes) (params : List (Key × Obj))
    (h : dictGet params (.name (asc "K")) = none ∨ ∃ k : Int, dictGet params (.name (asc "K")) = some (.int k) ∧ k ≠ -1) :
    ccittfaxdecode data params = .error .valueError := by
  have : isMinusOne (paramGet params "K") = false := by
    rcases h with h | ⟨k, h, hk⟩
    · rw [paramGet, h]; rfl
    · rw [paramGet, h]; simp [isMinusOne, hk]
  rw [ccittfaxdecode, this]
  rfl

end Pdf

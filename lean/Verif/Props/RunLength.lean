import Verif.Model.RunLength
import Verif.Spec.RunLength
/-! Property C03. -/

namespace Pdf.Props
open Pdf Pdf.Spec

theorem rlLoop_runs (runs : List Run) (hv : ∀ r ∈ runs, r.valid) (rest out : Bytes) :
    rlLoop (runs.flatMap Run.code ++ rest) out = rlLoop rest (out ++ runs.flatMap Run.data) := by
  induction runs generalizing out with
  | nil => simp
  | cons r rs ih =>
    have ih := ih (fun r hr => hv r (List.mem_cons_of_mem _ hr))
    have hr := hv r List.mem_cons_self
    cases r with
    | lit bs =>
      simp only [Run.valid] at hr
      have e : (UInt8.ofNat (bs.length - 1)).toNat = bs.length - 1 := by
        simp [UInt8.toNat_ofNat']; omega
      simp only [List.flatMap_cons, Run.code, Run.data, List.cons_append]
      rw [rlLoop.eq_def]
      dsimp only
      rw [if_neg (by intro h; have := congrArg UInt8.toNat h; rw [e] at this; simp at this; omega),
        if_pos (by rw [UInt8.lt_iff_toNat_lt, e]; simp; omega), e,
        Nat.sub_add_cancel hr.1, if_neg (by simp), List.append_assoc, List.drop_left, List.take_left, ih,
        List.append_assoc]
    | rep n b =>
      simp only [Run.valid] at hr
      have e : (UInt8.ofNat (257 - n)).toNat = 257 - n := by
        simp [UInt8.toNat_ofNat']; omega
      simp only [List.flatMap_cons, Run.code, Run.data, List.cons_append, List.nil_append]
      rw [rlLoop.eq_def]
      dsimp only
      rw [if_neg (by intro h; have := congrArg UInt8.toNat h; rw [e] at this; simp at this; omega),
        if_neg (by rw [UInt8.lt_iff_toNat_lt, e]; simp; omega)]
      simp only [e]
      rw [ih, List.append_assoc, show 257 - (257 - n) = n by omega]

/-- **C03.** Whatever decomposition of the data into valid runs an encoder chooses, decoding returns the
data: with the end marker 128 (followed by anything), or without it at the end of the input. -/
theorem runlength_roundtrip (runs : List Run) (hv : ∀ r ∈ runs, r.valid) (tail : Bytes) :
    rldecode (runs.flatMap Run.code ++ 128 :: tail) = .ok (runs.flatMap Run.data) ∧
    rldecode (runs.flatMap Run.code) = .ok (runs.flatMap Run.data) := by
  constructor
  · unfold rldecode
    rw [rlLoop_runs runs hv, rlLoop.eq_def]; simp
  · have := rlLoop_runs runs hv [] []
    unfold rldecode
    rw [List.append_nil] at this
    rw [this, rlLoop.eq_def]; simp

/-- Every byte string has an encoding (so C03 is about all data). -/
theorem runlength_complete (d : Bytes) : ∃ runs : List Run, (∀ r ∈ runs, r.valid) ∧ runs.flatMap Run.data = d :=
  ⟨d.map (fun b => .lit [b]), by simp [Run.valid], by
    induction d with
    | nil => rfl
    | cons b bs ih => simp [Run.data] at ih ⊢; exact ih⟩

/-- Truncated input is reported, never padded: a literal run that lacks bytes raises `IndexError`. -/
theorem runlength_truncated (runs : List Run) (hv : ∀ r ∈ runs, r.valid) (n : UInt8) (bs : Bytes)
    (hn : n < 128) (hb : bs.length ≤ n.toNat) :
    rldecode (runs.flatMap Run.code ++ n :: bs) = .error .indexError := by
  unfold rldecode
  rw [rlLoop_runs runs hv, rlLoop.eq_def]
  dsimp only
  rw [if_neg (by intro h; subst h; exact absurd hn (by decide)), if_pos hn,
    if_pos (by omega)]

example : ∀ r ∈ [Run.lit [1, 2, 3], Run.rep 128 7], r.valid := by simp [Run.valid]
example : rldecode [2, 1, 2, 3, 254, 7, 128, 99] = .ok [1, 2, 3, 7, 7, 7] := by
  have := (runlength_roundtrip [.lit [1, 2, 3], .rep 3 7] (by simp [Run.valid]) [99]).1
  exact this

end Pdf.Props

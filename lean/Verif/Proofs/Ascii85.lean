import Verif.Model.Ascii85
import Verif.Spec.Ascii85

namespace Pdf
open Spec

theorem be32_lt (a b c d : UInt8) : be32 a b c d < 4294967296 := by
  have := a.toNat_lt; have := b.toNat_lt; have := c.toNat_lt; have := d.toNat_lt
  unfold be32; omega

theorem packL_be32 (a b c d : UInt8) : packL (be32 a b c d) = .ok [a, b, c, d] := by
  have h := be32_lt a b c d
  have ha := a.toNat_lt; have hb := b.toNat_lt; have hc := c.toNat_lt; have hd := d.toNat_lt
  unfold packL
  rw [if_pos h]
  have e : ∀ (x : Nat) (y : UInt8), x % 256 = y.toNat → UInt8.ofNat x = y := by
    intro x y hxy
    apply UInt8.toNat_inj.mp
    simp [hxy]
  rw [e _ a, e _ b, e _ c, e _ d]
  all_goals unfold be32; omega

/-- A digit character. -/
theorem digit_char (x : Nat) (hx : x < 85) :
    (33 + UInt8.ofNat x).toNat = 33 + x := by
  simp only [UInt8.toNat_add, UInt8.toNat_ofNat']
  simp; omega

theorem digit_range (x : Nat) (hx : x < 85) :
    33 ≤ (33 + UInt8.ofNat x) ∧ (33 + UInt8.ofNat x) ≤ 117 := by
  simp only [UInt8.le_iff_toNat_le, digit_char x hx]
  simp; omega

/-- One digit, not the fifth. -/
theorem a85Loop_digit (x n b : Nat) (hx : x < 85) (hn : n + 1 ≠ 5) (cs out : Bytes) :
    a85Loop ((33 + UInt8.ofNat x) :: cs) n b out = a85Loop cs (n + 1) (b * 85 + x) out := by
  rw [a85Loop, if_pos (digit_range x hx), if_neg hn, digit_char x hx]
  simp

theorem a85Loop_digit5 (x b : Nat) (hx : x < 85) (cs out p : Bytes) (hp : packL (b * 85 + x) = .ok p) :
    a85Loop ((33 + UInt8.ofNat x) :: cs) 4 b out = a85Loop cs 0 0 (out ++ p) := by
  rw [a85Loop, if_pos (digit_range x hx), if_pos rfl, digit_char x hx]
  simp [hp, bind, Except.bind]

theorem a85Loop_group (a b c d : UInt8) (cs out : Bytes) :
    a85Loop (digits85 (be32 a b c d) ++ cs) 0 0 out = a85Loop cs 0 0 (out ++ [a, b, c, d]) := by
  have hv := be32_lt a b c d
  have hp := packL_be32 a b c d
  generalize be32 a b c d = v at hv hp
  unfold digits85
  simp only [List.cons_append, List.nil_append]
  rw [a85Loop_digit _ _ _ (Nat.mod_lt _ (by decide)) (by decide),
      a85Loop_digit _ _ _ (Nat.mod_lt _ (by decide)) (by decide),
      a85Loop_digit _ _ _ (Nat.mod_lt _ (by decide)) (by decide),
      a85Loop_digit _ _ _ (Nat.mod_lt _ (by decide)) (by decide),
      a85Loop_digit5 _ _ (Nat.mod_lt _ (by decide))]
  rw [← hp]; congr 1; omega

theorem a85Loop_z (cs out : Bytes) (b : Nat) :
    a85Loop (122 :: cs) 0 b out = a85Loop cs 0 b (out ++ [0, 0, 0, 0]) := by
  rw [a85Loop]; simp [show ¬ ((122 : UInt8) ≤ 117) by decide]

theorem a85Loop_end (cs out : Bytes) (b : Nat) : a85Loop (126 :: cs) 0 b out = .ok out := by
  rw [a85Loop]; simp [show ¬ ((126 : UInt8) ≤ 117) by decide]

theorem a85Loop_endn (cs out : Bytes) (n b : Nat) (hn : n ≠ 0) (p : Bytes)
    (hp : packL (a85Pad (5 - n) b) = .ok p) :
    a85Loop (126 :: cs) n b out = .ok (out ++ p.take (n - 1)) := by
  rw [a85Loop]; simp [show ¬ ((126 : UInt8) ≤ 117) by decide, hn, hp, bind, Except.bind]

theorem packL_take (v w : Nat) (a b c d : UInt8) (hw : w < 4294967296) (hv : v = be32 a b c d) :
    (w / 16777216 = v / 16777216 → (packL w).map (List.take 1) = .ok [a]) ∧
    (w / 65536 = v / 65536 → (packL w).map (List.take 2) = .ok [a, b]) ∧
    (w / 256 = v / 256 → (packL w).map (List.take 3) = .ok [a, b, c]) := by
  have ha := a.toNat_lt; have hb := b.toNat_lt; have hc := c.toNat_lt; have hd := d.toNat_lt
  have e : ∀ (x : Nat) (y : UInt8), x % 256 = y.toNat → UInt8.ofNat x = y := by
    intro x y hxy
    apply UInt8.toNat_inj.mp
    simp [hxy]
  unfold packL
  simp only [if_pos hw, Except.map, List.take]
  subst hv
  unfold be32
  refine ⟨fun h => ?_, fun h => ?_, fun h => ?_⟩
  · rw [e _ a]; omega
  · rw [e _ a, e _ b] <;> omega
  · rw [e _ a, e _ b, e _ c] <;> omega

/-- Dropping the characters that `ascii85decode` skips. -/
theorem a85Loop_filter (s rest : Bytes) (n b : Nat) (out : Bytes) (hs : (126 : UInt8) ∉ s) :
    a85Loop (s ++ rest) n b out = a85Loop (s.filter a85Significant ++ rest) n b out := by
  induction s generalizing n b out with
  | nil => rfl
  | cons c cs ih =>
    have hcs : (126 : UInt8) ∉ cs := fun h => hs (List.mem_cons_of_mem _ h)
    have hc : c ≠ 126 := fun h => hs (h ▸ List.mem_cons_self)
    by_cases hsig : a85Significant c = true
    · rw [List.filter_cons_of_pos hsig]
      simp only [List.cons_append]
      rw [a85Loop, a85Loop]
      split
      · split
        · cases packL (b * 85 + (c.toNat - 33)) with
          | error e => rfl
          | ok p => exact ih 0 0 _ hcs
        · exact ih _ _ _ hcs
      · split
        · split
          · exact ih _ _ _ hcs
          · rfl
        · simp [ih _ _ _ hcs]
    · rw [List.filter_cons_of_neg hsig]
      simp only [a85Significant, Bool.or_eq_true, Bool.and_eq_true, decide_eq_true_eq, beq_iff_eq, not_or] at hsig
      simp only [List.cons_append]
      rw [a85Loop, if_neg hsig.1.1, if_neg hsig.1.2, if_neg hsig.2]
      exact ih _ _ _ hcs

theorem digits_prefix (v : Nat) (hv : v < 4294967296) :
    (0 * 85 + v / 52200625 % 85) * 85 + v / 614125 % 85 = v / 614125 ∧
    v / 614125 * 85 + v / 7225 % 85 = v / 7225 ∧ v / 7225 * 85 + v / 85 % 85 = v / 85 := by
  have e1 : v / 614125 / 85 = v / 52200625 := by rw [Nat.div_div_eq_div_mul]
  have e2 : v / 7225 / 85 = v / 614125 := by rw [Nat.div_div_eq_div_mul]
  have e3 : v / 85 / 85 = v / 7225 := by rw [Nat.div_div_eq_div_mul]
  have e0 : v / 52200625 < 85 := by omega
  have a1 : (0 * 85 + v / 52200625 % 85) * 85 + v / 614125 % 85 = v / 614125 := by
    rw [Nat.mod_eq_of_lt e0]; omega
  exact ⟨a1, by omega, by omega⟩

theorem Spec.A85.loop {d s : Bytes} (h : A85 d s) (tail out : Bytes) :
    a85Loop (s ++ 126 :: tail) 0 0 out = .ok (out ++ d) := by
  induction h generalizing out with
  | nil => simp [a85Loop_end]
  | group a b c d _ ih => rw [List.append_assoc, a85Loop_group, ih]; simp
  | zero _ ih => rw [List.cons_append, a85Loop_z, ih]; simp
  | tail1 a =>
    have hv := be32_lt a 0 0 0
    have ht := fun w hw => (packL_take (be32 a 0 0 0) w a 0 0 0 hw rfl).1
    have hv' : be32 a 0 0 0 % 16777216 = 0 := by unfold be32; simp; omega
    generalize be32 a 0 0 0 = v at hv ht hv'
    unfold digits85
    simp only [Nat.reducePow, List.take, List.cons_append, List.nil_append]
    rw [a85Loop_digit _ _ _ (Nat.mod_lt _ (by decide)) (by decide),
        a85Loop_digit _ _ _ (Nat.mod_lt _ (by decide)) (by decide)]
    have hw := ht (a85Pad 3 ((0 * 85 + v / 52200625 % 85) * 85 + v / 614125 % 85))
      (by simp only [a85Pad, digits_prefix v hv]; omega) (by simp only [a85Pad, digits_prefix v hv]; omega)
    generalize hb : (0 * 85 + v / 52200625 % 85) * 85 + v / 614125 % 85 = b at hw
    cases hp : packL (a85Pad 3 b) with
    | error e => rw [hp] at hw; cases hw
    | ok p =>
      rw [a85Loop_endn _ _ _ _ (by decide) p hp]
      rw [hp] at hw
      simp only [Except.map, Except.ok.injEq] at hw
      simpa using hw
  | tail2 a b =>
    have hv := be32_lt a b 0 0
    have ht := fun w hw => (packL_take (be32 a b 0 0) w a b 0 0 hw rfl).2.1
    have hv' : be32 a b 0 0 % 65536 = 0 := by unfold be32; simp; omega
    generalize be32 a b 0 0 = v at hv ht hv'
    unfold digits85
    simp only [Nat.reducePow, List.take, List.cons_append, List.nil_append]
    rw [a85Loop_digit _ _ _ (Nat.mod_lt _ (by decide)) (by decide),
        a85Loop_digit _ _ _ (Nat.mod_lt _ (by decide)) (by decide),
        a85Loop_digit _ _ _ (Nat.mod_lt _ (by decide)) (by decide)]
    have hw := ht (a85Pad 2 (((0 * 85 + v / 52200625 % 85) * 85 + v / 614125 % 85) * 85 + v / 7225 % 85))
      (by simp only [a85Pad, digits_prefix v hv]; omega) (by simp only [a85Pad, digits_prefix v hv]; omega)
    generalize hb : ((0 * 85 + v / 52200625 % 85) * 85 + v / 614125 % 85) * 85 + v / 7225 % 85 = b at hw
    cases hp : packL (a85Pad 2 b) with
    | error e => rw [hp] at hw; cases hw
    | ok p =>
      rw [a85Loop_endn _ _ _ _ (by decide) p hp]
      rw [hp] at hw
      simp only [Except.map, Except.ok.injEq] at hw
      simpa using hw
  | tail3 a b c =>
    have hv := be32_lt a b c 0
    have ht := fun w hw => (packL_take (be32 a b c 0) w a b c 0 hw rfl).2.2
    have hv' : be32 a b c 0 % 256 = 0 := by unfold be32; simp
    generalize be32 a b c 0 = v at hv ht hv'
    unfold digits85
    simp only [Nat.reducePow, List.take, List.cons_append, List.nil_append]
    rw [a85Loop_digit _ _ _ (Nat.mod_lt _ (by decide)) (by decide),
        a85Loop_digit _ _ _ (Nat.mod_lt _ (by decide)) (by decide),
        a85Loop_digit _ _ _ (Nat.mod_lt _ (by decide)) (by decide),
        a85Loop_digit _ _ _ (Nat.mod_lt _ (by decide)) (by decide)]
    have hw := ht (a85Pad 1 ((((0 * 85 + v / 52200625 % 85) * 85 + v / 614125 % 85) * 85 + v / 7225 % 85) * 85 + v / 85 % 85))
      (by simp only [a85Pad, digits_prefix v hv]; omega) (by simp only [a85Pad, digits_prefix v hv]; omega)
    generalize hb : (((0 * 85 + v / 52200625 % 85) * 85 + v / 614125 % 85) * 85 + v / 7225 % 85) * 85 + v / 85 % 85 = b at hw
    cases hp : packL (a85Pad 1 b) with
    | error e => rw [hp] at hw; cases hw
    | ok p =>
      rw [a85Loop_endn _ _ _ _ (by decide) p hp]
      rw [hp] at hw
      simp only [Except.map, Except.ok.injEq] at hw
      simpa using hw

theorem Spec.A85.no_end {d s : Bytes} (h : A85 d s) : (126 : UInt8) ∉ s := by
  have key : ∀ v k, (126 : UInt8) ∉ (digits85 v).take k := by
    intro v k hm
    have hm := List.mem_of_mem_take hm
    have hd : ∀ x, (126 : UInt8) ≠ 33 + UInt8.ofNat (x % 85) := by
      intro x hx
      have h2 := congrArg UInt8.toNat hx
      rw [digit_char _ (Nat.mod_lt _ (by decide))] at h2
      simp at h2; omega
    simp only [digits85, List.mem_cons, List.not_mem_nil, or_false] at hm
    rcases hm with h | h | h | h | h <;> exact hd _ h
  induction h with
  | nil => simp
  | group a b c d _ ih =>
    intro hm
    rcases List.mem_append.mp hm with h | h
    · exact key _ 5 (by simpa [digits85] using h)
    · exact ih h
  | zero _ ih => simpa using ih
  | tail1 a => exact key _ _
  | tail2 a b => exact key _ _
  | tail3 a b c => exact key _ _

theorem a85encode_spec : ∀ d, A85 d (a85encode d)
  | a :: b :: c :: d :: t => .group a b c d (a85encode_spec t)
  | [a, b, c] => .tail3 a b c
  | [a, b] => .tail2 a b
  | [a] => .tail1 a
  | [] => .nil

/-! ### ASCIIHex -/

theorem isSpace_not_hex (c : UInt8) : isSpace c = true → isHex c = false := by
  simp only [isSpace, isHex, Bool.or_eq_true, Bool.and_eq_true, beq_iff_eq, decide_eq_true_eq,
    Bool.or_eq_false_iff, Bool.and_eq_false_iff, decide_eq_false_iff_not, UInt8.le_iff_toNat_le, ← UInt8.toNat_inj]
  simp; omega

theorem Spec.HexDigit.isHex {n : Nat} {c : UInt8} (h : HexDigit n c) : isHex c = true := by
  simp only [Pdf.isHex, Bool.or_eq_true, Bool.and_eq_true, decide_eq_true_eq, UInt8.le_iff_toNat_le]
  simp; unfold HexDigit at h; omega

theorem Spec.HexDigit.val {n : Nat} {c : UInt8} (h : HexDigit n c) : hexVal c = n := by
  simp only [hexVal, UInt8.le_iff_toNat_le]
  unfold HexDigit at h
  simp
  split
  · omega
  · split
    · omega
    · split <;> omega

theorem Spec.HexDigit.not_space {n : Nat} {c : UInt8} (h : HexDigit n c) : isSpace c = false := by
  cases hs : isSpace c with
  | false => rfl
  | true => have := isSpace_not_hex c hs; rw [h.isHex] at this; cases this

theorem byte_of_nibbles (b : UInt8) : UInt8.ofNat (b.toNat / 16 * 16 + b.toNat % 16) = b := by
  rw [show b.toNat / 16 * 16 + b.toNat % 16 = b.toNat by omega]; simp

theorem Spec.HexEnc.find {d s : Bytes} (h : HexEnc d s) (e : Bytes) :
    hexFindAll (s ++ e) = d ++ hexFindAll e := by
  induction h with
  | nil => rfl
  | space w hw _ ih =>
    rename_i d s _
    have hw' := isSpace_not_hex w hw
    rw [← ih]
    cases hse : s ++ e with
    | nil => simp [hse, hexFindAll]
    | cons c cs => simp [hse, hexFindAll, hw']
  | pair b h l hh hl _ ih =>
    simp only [List.cons_append]
    rw [hexFindAll]
    simp only [hh.isHex, hl.isHex, hh.val, hl.val, byte_of_nibbles, ih, Bool.and_self, if_true]

theorem Spec.HexEnc.trail {d s : Bytes} (h : HexEnc d s) (e : Bytes) (he : e ≠ []) :
    hexTrail (s ++ e) = hexTrail e := by
  induction h with
  | nil => rfl
  | space w hw _ ih =>
    rename_i d s _
    rw [← ih]
    cases hse : s ++ e with
    | nil => simp [he] at hse
    | cons c cs => simp [hse, hexTrail, hw]
  | pair b h l hh hl _ ih =>
    simp only [List.cons_append]
    rw [hexTrail]
    simp [hh.isHex, hl.isHex, hh.not_space, ih]

theorem Spec.HexEnc.trail_nil {d s : Bytes} (h : HexEnc d s) : hexTrail s = none := by
  induction h with
  | nil => rfl
  | space w hw _ ih =>
    rename_i d s _
    cases s with
    | nil => simp [hexTrail, isSpace_not_hex w hw]
    | cons c cs => simp [hexTrail, hw, ih]
  | pair b h l hh hl _ ih =>
    rw [hexTrail]
    simp [hh.isHex, hl.isHex, hh.not_space, ih]

theorem hexFindAll_nohex (s : Bytes) (h : s.all (fun c => !isHex c) = true) : hexFindAll s = [] := by
  induction s with
  | nil => rfl
  | cons c cs ih =>
    simp only [List.all_cons, Bool.and_eq_true] at h
    cases cs with
    | nil => rfl
    | cons d ds => rw [hexFindAll]; simp_all

theorem hexTail_nohex (e : Bytes) (h : hexTail e = true) : e.all (fun c => !isHex c) = true := by
  simp only [hexTail, List.all_eq_true] at *
  intro c hc
  have := h c hc
  simp only [Bool.or_eq_true, beq_iff_eq] at this
  rcases this with h | h
  · simp [isSpace_not_hex c h]
  · subst h; decide

theorem hexTrail_tail (e : Bytes) (h : hexTail e = true) : hexTrail e = none := by
  induction e with
  | nil => rfl
  | cons c cs ih =>
    have hn := hexTail_nohex _ h
    simp only [List.all_cons, Bool.and_eq_true, hexTail] at h hn
    cases cs with
    | nil => simp_all [hexTrail]
    | cons d ds =>
      rw [hexTrail]
      have := ih h.2
      simp_all
end Pdf

import Verif.Proofs.Ascii85
/-! Properties C01 (ASCII85) and C02 (ASCIIHex). -/

namespace Pdf.Props
open Pdf Pdf.Spec

/-- **C01.** Any ASCII85 encoding `s` of `d` (characters that carry no information inserted anywhere, since
only the significant characters of `s` have to form an encoding), ended by `~` and followed by
anything, decodes to `d`. -/
theorem ascii85_roundtrip (d s tail : Bytes) (h : A85 d (s.filter a85Significant)) :
    ascii85decode (s ++ 126 :: tail) = .ok d := by
  have hs : (126 : UInt8) ∉ s := by
    intro hm
    have : (126 : UInt8) ∈ s.filter a85Significant := List.mem_filter.mpr ⟨hm, by decide⟩
    exact A85.no_end h this
  unfold ascii85decode
  rw [a85Loop_filter _ _ _ _ _ hs, A85.loop h]
  rfl

/-- **C01**, for the plain encoder and the customary terminator `~>`. -/
theorem ascii85_roundtrip_encode (d tail : Bytes) :
    ascii85decode (a85encode d ++ [126, 62] ++ tail) = .ok d := by
  have := ascii85_roundtrip d (a85encode d) (62 :: tail) (by
    have hd := a85encode_spec d
    have : (a85encode d).filter a85Significant = a85encode d := by
      rw [List.filter_eq_self]
      generalize a85encode d = s at hd
      have key : ∀ v k, ∀ c ∈ (digits85 v).take k, a85Significant c = true := by
        intro v k c hc
        have hc := List.mem_of_mem_take hc
        have hd : ∀ x, a85Significant (33 + UInt8.ofNat (x % 85)) = true := by
          intro x
          have := digit_range (x % 85) (Nat.mod_lt _ (by decide))
          simp [a85Significant, this.1, this.2]
        simp only [digits85, List.mem_cons, List.not_mem_nil, or_false] at hc
        rcases hc with h | h | h | h | h <;> subst h <;> exact hd _
      induction hd with
      | nil => simp
      | group a b c d _ ih =>
        intro x hx
        rcases List.mem_append.mp hx with h | h
        · exact key _ 5 x (by simpa [digits85] using h)
        · exact ih x h
      | zero _ ih =>
        intro x hx
        rcases List.mem_cons.mp hx with h | h
        · subst h; decide
        · exact ih x h
      | tail1 a => exact key _ _
      | tail2 a b => exact key _ _
      | tail3 a b c => exact key _ _
    rw [this]; exact hd)
  simpa using this

-- the hypothesis of `ascii85_roundtrip` is met: "87cURD]j7BEbo80" with blanks and a `z` in between
example : A85 [72, 101, 108, 108, 0, 0, 0, 0, 111] ([56, 55, 32, 99, 85, 10, 82, 122, 68, 90].filter a85Significant) := by
  have h := A85.group 72 101 108 108 (A85.zero (A85.tail1 111))
  have e : digits85 (be32 72 101 108 108) ++ 122 :: (digits85 (be32 111 0 0 0)).take 2 =
    [56, 55, 32, 99, 85, 10, 82, 122, 68, 90].filter a85Significant := by decide
  rw [← e]; exact h

/-- Limit of the implementation: the optional prefix `<~` is not recognised; everything after it is
lost (`<` counts as a digit and `~` ends the data). -/
theorem ascii85_prefix_not_supported (s : Bytes) : ascii85decode (60 :: 126 :: s) = .ok [] := by
  unfold ascii85decode
  obtain ⟨p, hp⟩ : ∃ p, packL (a85Pad 4 27) = .ok p := by simp [packL, a85Pad]
  rw [a85Loop, if_pos (by decide), if_neg (by decide)]
  exact a85Loop_endn s [] 1 27 (by decide) p hp

/-- **C02** (proved part). Data written as pairs of hexadecimal digits of either case, with white space
between the pairs, ended by white space and `>` signs (or by nothing), decodes to itself; an extra
odd digit `o` before the end counts as `o0`. Missing with respect to the documented behaviour of the
filter (and refuted below): white space inside a pair, and ignoring what follows `>`. -/
theorem asciihex_roundtrip_partial (d s e : Bytes) (h : HexEnc d s)
    (he : e.all (fun c => isSpace c || c == 62) = true) :
    asciihexdecode (s ++ e) = d ∧
    ∀ n o, HexDigit n o → asciihexdecode (s ++ o :: e) = d ++ [UInt8.ofNat (16 * n)] := by
  have hn := hexTail_nohex e he
  constructor
  · unfold asciihexdecode
    rw [h.find e, hexFindAll_nohex e hn]
    have : hexTrail (s ++ e) = none := by
      by_cases hnil : e = []
      · subst hnil; simpa using h.trail_nil
      · rw [h.trail e hnil, hexTrail_tail e he]
    simp [this]
  · intro n o ho
    unfold asciihexdecode
    rw [h.find _, h.trail _ (by simp)]
    cases e with
    | nil => simp [hexFindAll, hexTrail, ho.isHex, ho.val, Nat.mul_comm]
    | cons c cs =>
      have hn' := hn
      simp only [List.all_cons, Bool.and_eq_true, Bool.not_eq_true'] at hn'
      rw [hexFindAll, hexTrail]
      simp [hn'.1, ho.not_space, ho.isHex, hexTail, he, ho.val, Nat.mul_comm]
      exact hexFindAll_nohex _ hn

-- the hypotheses are met: "48 6F\n>" and the odd digit of "48 6F7>"
example : HexEnc [0x48, 0x6f] [52, 56, 32, 54, 70] ∧ HexDigit 7 55 :=
  ⟨.pair 0x48 52 56 (by unfold HexDigit; decide) (by unfold HexDigit; decide)
     (.space 32 (by decide) (.pair 0x6f 54 70 (by unfold HexDigit; decide) (by unfold HexDigit; decide) .nil)),
   by unfold HexDigit; decide⟩

/-- C02 is false of the code for white space inside a pair: `4 8>` decodes to nothing. -/
theorem asciihex_split_pair_counterexample : asciihexdecode [52, 32, 56, 62] = [] := by decide

/-- C02 is false of the code for data after the end marker: `48>49` decodes to two bytes. -/
theorem asciihex_after_eod_counterexample : asciihexdecode [52, 56, 62, 52, 57] = [0x48, 0x49] := by decide

end Pdf.Props

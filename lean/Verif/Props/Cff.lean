import Verif.Spec.Cff
import Verif.Props.ToUnicode
import Verif.Props.Xref
import Mathlib.Tactic.IntervalCases
import Mathlib.Tactic.Ring
import Mathlib.Tactic.FieldSimp
/-! C101 and C102: reading compact fonts. -/

namespace Pdf
open Spec

/-! ### Integers -/

theorem lowByte_toNat (v : Int) : ((lowByte v).toNat : Int) = v % 256 := by
  have h := Int.emod_nonneg v (by decide : (256 : Int) ≠ 0)
  have h2 := Int.emod_lt_of_pos v (by decide : (0 : Int) < 256)
  unfold lowByte
  rw [UInt8.toNat_ofNat']
  omega

theorem lowByte_nat (v : Int) : (lowByte v).toNat = (v % 256).toNat := by
  have := lowByte_toNat v
  omega

theorem cffSigned_lowByte (v : Int) : cffSigned (lowByte v) = if v % 256 < 128 then v % 256 else v % 256 - 256 := by
  have := lowByte_toNat v
  unfold cffSigned
  split <;> split <;> omega

/-- Every way to write an integer is read. -/
theorem cff_int {v : Int} {t : Bytes} (h : CffInt v t) : ∃ b0 r, t = b0 :: r ∧ 21 < b0.toNat ∧ ∀ rest, cffNumber b0.toNat (r ++ rest) = .ok (.int v, rest) := by
  cases h with
  | one h1 h2 =>
    refine ⟨_, [], rfl, ?_, ?_⟩
    · rw [lowByte_nat]; omega
    · intro rest
      have h := lowByte_toNat (v + 139)
      rw [cffNumber.eq_def, if_neg (by omega), if_pos (by omega)]
      simp only [List.nil_append, Except.ok.injEq, Prod.mk.injEq, CffNum.int.injEq, and_true]
      omega
  | up h1 h2 =>
    refine ⟨_, _, rfl, ?_, ?_⟩
    · rw [lowByte_nat]; omega
    · intro rest
      have h := lowByte_toNat ((v - 108) / 256 + 247)
      have h' := lowByte_toNat (v - 108)
      rw [cffNumber.eq_def, if_neg (by omega), if_neg (by omega)]
      simp only [List.cons_append, List.nil_append]
      rw [if_pos (by omega)]
      simp only [Except.ok.injEq, Prod.mk.injEq, CffNum.int.injEq, and_true]
      omega
  | down h1 h2 =>
    refine ⟨_, _, rfl, ?_, ?_⟩
    · rw [lowByte_nat]; omega
    · intro rest
      have h := lowByte_toNat ((-v - 108) / 256 + 251)
      have h' := lowByte_toNat (-v - 108)
      rw [cffNumber.eq_def, if_neg (by omega), if_neg (by omega)]
      simp only [List.cons_append, List.nil_append]
      rw [if_neg (by omega), if_pos (by omega)]
      simp only [Except.ok.injEq, Prod.mk.injEq, CffNum.int.injEq, and_true]
      omega
  | two h1 h2 =>
    refine ⟨_, _, rfl, by decide, ?_⟩
    intro rest
    have h := cffSigned_lowByte (v / 256)
    have h' := lowByte_toNat v
    have e : (28 : UInt8).toNat = 28 := rfl
    rw [e, cffNumber.eq_def, if_neg (by omega), if_neg (by omega)]
    simp only [List.cons_append, List.nil_append]
    rw [if_neg (by omega), if_neg (by omega)]
    simp only [if_true, Except.ok.injEq, Prod.mk.injEq, CffNum.int.injEq, and_true]
    rw [h, h']
    split <;> omega
  | four h1 h2 =>
    refine ⟨_, _, rfl, by decide, ?_⟩
    intro rest
    have h := cffSigned_lowByte (v / 16777216)
    have h2' := lowByte_toNat (v / 65536)
    have h3 := lowByte_toNat (v / 256)
    have h4 := lowByte_toNat v
    have e : (29 : UInt8).toNat = 29 := rfl
    rw [e, cffNumber.eq_def, if_neg (by omega), if_neg (by omega)]
    simp only [List.cons_append, List.nil_append]
    rw [if_neg (by omega), if_neg (by omega), if_neg (by omega)]
    simp only [Except.ok.injEq, Prod.mk.injEq, CffNum.int.injEq, and_true]
    rw [h, h2', h3, h4]
    split <;> omega

/-! ### Real numbers -/

/-- The text of a nibble. -/
def nibText (n : Nat) : List Nat := (cffNibble n).getD []

theorem ofNat_pair {a b : Nat} (ha : a < 16) (hb : b < 16) : (UInt8.ofNat (a * 16 + b)).toNat / 16 = a ∧ (UInt8.ofNat (a * 16 + b)).toNat % 16 = b := by
  rw [UInt8.toNat_ofNat']
  omega

theorem cffNib_text {n : Nat} (h : n < 15) (h' : n ≠ 13) (r : List Nat × Bool) : cffNib n r = .ok (r.1 ++ nibText n, r.2) := by
  have : ∃ t, cffNibble n = some t := by
    unfold cffNibble
    split_ifs <;> simp
    omega
  obtain ⟨t, ht⟩ := this
  rw [cffNib, if_neg (by omega)]
  simp [nibText, ht]

theorem cffNib_end (r : List Nat × Bool) : cffNib 15 r = .ok (r.1, false) := by simp [cffNib]

/-- The nibbles of a number are read up to its end. -/
theorem cff_nibbles : ∀ (ns : List Nat), (∀ n ∈ ns, n < 15 ∧ n ≠ 13) → ∀ (s : List Nat) (rest : Bytes),
    cffReal (nibbleBytes (ns ++ [15]) ++ rest) s = .ok (s ++ ns.flatMap nibText, rest)
  | [], _, s, rest => by
    have := ofNat_pair (a := 15) (b := 15) (by decide) (by decide)
    simp only [List.nil_append, nibbleBytes, List.cons_append, cffReal]
    rw [this.1, this.2, cffNib_end]
    dsimp only
    rw [cffNib_end]
    simp
  | [a], h, s, rest => by
    have ha := h a (by simp)
    have := ofNat_pair (a := a) (b := 15) (by omega) (by decide)
    simp only [List.cons_append, List.nil_append, nibbleBytes, cffReal]
    rw [this.1, this.2, cffNib_text ha.1 ha.2]
    dsimp only
    rw [cffNib_end]
    simp
  | a :: b :: ns, h, s, rest => by
    have ha := h a (by simp)
    have hb := h b (by simp)
    have := ofNat_pair (a := a) (b := b) (by omega) (by omega)
    simp only [List.cons_append, nibbleBytes, cffReal]
    rw [this.1, this.2, cffNib_text ha.1 ha.2]
    dsimp only
    rw [cffNib_text hb.1 hb.2]
    dsimp only
    rw [cff_nibbles ns (fun n hn => h n (by simp [hn]))]
    simp [List.append_assoc]

/-- The text of digits. -/
def digitText (ds : List (Fin 10)) : List Nat := ds.map fun d => 0x30 + d.val

theorem nibText_digits (ds : List (Fin 10)) : (ds.map Fin.val).flatMap nibText = digitText ds := by
  induction ds with
  | nil => rfl
  | cons d ds ih =>
    have hd := d.isLt
    have : nibText d.val = [0x30 + d.val] := by
      unfold nibText cffNibble
      rw [if_pos (by omega)]; rfl
    simp only [List.map_cons, List.flatMap_cons, ih, this, digitText, List.cons_append, List.nil_append]

theorem digitText_digit (ds : List (Fin 10)) : ∀ c ∈ digitText ds, cffDigit c = true := by
  intro c hc
  obtain ⟨d, _, rfl⟩ := List.mem_map.1 hc
  have := d.isLt
  simp only [cffDigit, decide_eq_true_eq]
  omega

theorem cffDigits_text (ds : List (Fin 10)) : cffDigits (digitText ds) = decimalValue ds := by
  unfold cffDigits digitText decimalValue
  rw [List.foldl_map]
  congr 1
  funext n d
  omega

theorem digitText_nil {ds : List (Fin 10)} : digitText ds = [] ↔ ds = [] := by simp [digitText]

theorem cff_exponent {neg : Bool} {ds : List (Fin 10)} (h : ds ≠ []) :
    cffExponent ((if neg then [0x2d] else []) ++ digitText ds) = some (if neg then -(decimalValue ds : Int) else decimalValue ds) := by
  have h1 : digitText ds ≠ [] := fun h' => h (digitText_nil.1 h')
  have h2 : (digitText ds).all cffDigit = true := List.all_eq_true.2 (digitText_digit ds)
  cases neg with
  | true => simp [cffExponent, h1, h2, cffDigits_text, -List.all_eq_true]
  | false =>
    have hne : ∀ r, digitText ds ≠ 0x2d :: r := by
      intro r he
      have := digitText_digit ds 0x2d (by rw [he]; simp)
      exact absurd this (by decide)
    simp only [Bool.false_eq_true, if_false, List.nil_append]
    unfold cffExponent
    split
    · rename_i s he; exact absurd he (hne s)
    · rw [if_pos ⟨h1, h2⟩, cffDigits_text]

theorem cff_takeWhile_digits (ds : List (Fin 10)) (r : List Nat) (hr : ∀ c r', r = c :: r' → cffDigit c = false) :
    (digitText ds ++ r).takeWhile cffDigit = digitText ds ∧ (digitText ds ++ r).dropWhile cffDigit = r := by
  have h := digitText_digit ds
  generalize digitText ds = l at h
  induction l with
  | nil =>
    cases r with
    | nil => simp
    | cons c r => simp [hr c r rfl]
  | cons a l ih =>
    have ha := h a (by simp)
    have := ih (fun c hc => h c (by simp [hc]))
    simp [ha, this.1, this.2]

/-- The text of the exponent. -/
def expText : Option (Bool × List (Fin 10)) → List Nat
  | none => []
  | some (neg, e) => 0x65 :: ((if neg then [0x2d] else []) ++ digitText e)

theorem expText_head (e : Option (Bool × List (Fin 10))) : ∀ c r, expText e = c :: r → cffDigit c = false := by
  intro c r h
  cases e with
  | none => cases h
  | some p => obtain ⟨rfl, _⟩ := List.cons.inj h; decide

/-- The text of the digits and the point. -/
def fracText : Option (List (Fin 10)) → List Nat
  | none => []
  | some f => 0x2e :: digitText f

theorem cff_unsigned (whole : List (Fin 10)) (frac : Option (List (Fin 10))) (e : Option (Bool × List (Fin 10))) (h1 : whole ++ frac.getD [] ≠ [])
    (h2 : ∀ x, e = some x → x.2 ≠ []) : cffUnsigned (digitText whole ++ fracText frac ++ expText e) =
      some (decimalValue (whole ++ frac.getD []) / 10 ^ (frac.getD []).length * exponentValue e) := by
  have e0 : ∀ a b, digitText a ++ digitText b = digitText (a ++ b) := fun a b => by simp [digitText]
  have tail : ∀ m : ℚ, cffScale m (expText e) = some (m * exponentValue e) := by
    intro m
    cases e with
    | none => simp [expText, exponentValue, cffScale]
    | some x =>
      obtain ⟨neg, ds⟩ := x
      have := cff_exponent (neg := neg) (h2 _ rfl)
      simp only [expText, cffScale]
      rw [this]
      cases neg with
      | false => simp [exponentValue]
      | true => simp [exponentValue]
  cases frac with
  | none =>
    have h := cff_takeWhile_digits whole (expText e) (expText_head e)
    have hd : cffFraction (expText e) = ([], expText e) := by
      cases e with
      | none => rfl
      | some p => rfl
    simp only [Option.getD_none, List.append_nil] at h1
    unfold cffUnsigned
    simp only [fracText, List.append_nil, Option.getD_none, List.length_nil, pow_zero, div_one]
    rw [h.1, h.2, hd]
    simp only [List.append_nil, List.length_nil, pow_zero, div_one, cffDigits_text]
    rw [if_neg (fun h' => h1 (digitText_nil.1 h'))]
    exact tail _
  | some f =>
    have h := cff_takeWhile_digits whole (0x2e :: (digitText f ++ expText e)) (by intro c r he; obtain ⟨rfl, _⟩ := List.cons.inj he; decide)
    have h' := cff_takeWhile_digits f (expText e) (expText_head e)
    have hd : cffFraction (0x2e :: (digitText f ++ expText e)) = (digitText f, expText e) := by
      rw [← Prod.mk.injEq] at h'; exact h'
    unfold cffUnsigned
    simp only [fracText, Option.getD_some, List.append_assoc, List.cons_append] at h1 ⊢
    rw [h.1, h.2, hd]
    dsimp only
    rw [e0, if_neg (fun h' => h1 (digitText_nil.1 h')), cffDigits_text]
    simp only [show (digitText f).length = f.length from by simp [digitText]]
    exact tail _

theorem decimal_text (x : CffDecimal) : ∃ ns, x.nibbles = ns ++ [15] ∧ (∀ n ∈ ns, n < 15 ∧ n ≠ 13) ∧
    ns.flatMap nibText = (if x.negative then [0x2d] else []) ++ (digitText x.whole ++ fracText x.fraction ++ expText x.exponent) := by
  refine ⟨_, rfl, ?_, ?_⟩
  · intro n hn
    have hd : ∀ ds : List (Fin 10), n ∈ ds.map Fin.val → n < 15 ∧ n ≠ 13 := by
      intro ds h
      obtain ⟨d, _, rfl⟩ := List.mem_map.1 h
      have := d.isLt
      omega
    rcases x with ⟨neg, whole, frac, exp⟩
    simp only [List.mem_append] at hn
    rcases hn with ((hn | hn) | hn) | hn
    · cases neg
      · simp at hn
      · simp at hn; omega
    · exact hd _ hn
    · cases frac with
      | none => cases hn
      | some f =>
        rcases List.mem_cons.1 hn with rfl | hn
        · decide
        · exact hd _ hn
    · rcases exp with _ | ⟨_ | _, e⟩
      · cases hn
      · rcases List.mem_cons.1 hn with rfl | hn
        · decide
        · exact hd _ hn
      · rcases List.mem_cons.1 hn with rfl | hn
        · decide
        · exact hd _ hn
  · rcases x with ⟨neg, whole, frac, exp⟩
    have h1 : (if neg = true then [0xe] else []).flatMap nibText = if neg = true then [0x2d] else [] := by cases neg <;> rfl
    have h2 : (fractionNibbles frac).flatMap nibText = fracText frac := by
      cases frac with
      | none => rfl
      | some f => simp only [fractionNibbles, List.flatMap_cons, nibText_digits, fracText]; rfl
    have h3 : (exponentNibbles exp).flatMap nibText = expText exp := by
      rcases exp with _ | ⟨_ | _, e⟩
      · rfl
      · simp only [exponentNibbles, List.flatMap_cons, nibText_digits, expText]; rfl
      · simp only [exponentNibbles, List.flatMap_cons, nibText_digits, expText]; rfl
    simp only [List.flatMap_append, nibText_digits, List.append_assoc]
    rw [h1]
    congr 2
    exact congrArg₂ _ h2 h3

theorem cff_float (x : CffDecimal) (h : x.Ok) :
    cffFloat ((if x.negative then [0x2d] else []) ++ (digitText x.whole ++ fracText x.fraction ++ expText x.exponent)) = some x.value := by
  have hu := cff_unsigned x.whole x.fraction x.exponent h.1 h.2
  have hv : x.value = (if x.negative then -1 else 1) * (decimalValue (x.whole ++ x.fraction.getD []) / 10 ^ (x.fraction.getD []).length * exponentValue x.exponent) := by
    unfold CffDecimal.value
    ring
  rw [hv]
  cases x.negative with
  | true =>
    simp only [if_true, List.cons_append, List.nil_append, cffFloat, hu, Option.map_some, Option.some.injEq]
    ring
  | false =>
    simp only [Bool.false_eq_true, if_false, List.nil_append, one_mul]
    rw [← hu]
    have hne : ∀ r, digitText x.whole ++ fracText x.fraction ++ expText x.exponent ≠ 0x2d :: r := by
      intro r he
      cases hw : x.whole with
      | cons d ds =>
        rw [hw] at he
        have h0 : 0x30 + d.val = 0x2d := (List.cons.inj he).1
        omega
      | nil =>
        have h1 := h.1
        rw [hw] at he h1
        cases hf : x.fraction with
        | none => rw [hf] at h1; simp at h1
        | some f => rw [hf] at he; exact absurd (List.cons.inj he).1 (by decide)
    generalize digitText x.whole ++ fracText x.fraction ++ expText x.exponent = s at *
    unfold cffFloat
    split
    · rename_i r; exact absurd rfl (hne r)
    · rfl

/-- **C101.** Every way to write a number is read. -/
theorem cff_number {v : CffNum} {t : Bytes} (h : CffNumber v t) :
    ∃ b0 r, t = b0 :: r ∧ 21 < b0.toNat ∧ ∀ rest, cffNumber b0.toNat (r ++ rest) = .ok (v, rest) := by
  cases h with
  | int h => exact cff_int h
  | @real x h =>
    refine ⟨30, _, rfl, by decide, ?_⟩
    intro rest
    obtain ⟨ns, e1, e2, e3⟩ := decimal_text x
    have e : (30 : UInt8).toNat = 30 := rfl
    rw [e, cffNumber.eq_def, if_pos rfl, e1, cff_nibbles ns e2, List.nil_append]
    dsimp only
    rw [e3, cff_float x h]

/-! ### Dictionaries -/

theorem cffDictLoop_number {v : CffNum} {t : Bytes} (h : CffNumber v t) (rest : Bytes) (stack : List CffNum) (d : List (Nat × List CffNum)) :
    cffDictLoop (t ++ rest) stack d = cffDictLoop rest (stack ++ [v]) d := by
  obtain ⟨b0, r, rfl, h1, h2⟩ := cff_number h
  rw [List.cons_append, cffDictLoop, if_neg (by omega)]
  split
  · rename_i e he; rw [h2] at he; cases he
  · rename_i v' r' he; rw [h2] at he; cases he; rfl

theorem cffDictLoop_numbers {vs : List CffNum} {ts : List Bytes} (h : List.Forall₂ CffNumber vs ts) (rest : Bytes) (stack : List CffNum)
    (d : List (Nat × List CffNum)) : cffDictLoop (ts.flatten ++ rest) stack d = cffDictLoop rest (stack ++ vs) d := by
  induction h generalizing stack with
  | nil => simp
  | cons h _ ih => rw [List.flatten_cons, List.append_assoc, cffDictLoop_number h, ih, List.append_assoc]; rfl

theorem cffDictLoop_entries {es : List (Nat × List CffNum)} {t : Bytes} (h : CffDictData es t) (h1 : ∀ e ∈ es, e.1 ≤ 21) (d : List (Nat × List CffNum)) :
    cffDictLoop t [] d = .ok (es.foldl (fun d e => dictSet d e.1 e.2) d) := by
  induction h generalizing d with
  | nil => rw [cffDictLoop]; rfl
  | @cons op o vs ts es t ho h3 _ ih =>
    have hop := h1 (op, vs) (by simp)
    have ih := ih fun e he => h1 e (by simp [he])
    cases ho with
    | two => omega
    | one h1 h2 =>
      have e : (UInt8.ofNat op).toNat = op := by rw [UInt8.toNat_ofNat']; omega
      rw [List.append_assoc, cffDictLoop_numbers h3, List.cons_append, cffDictLoop, if_pos (by omega), e]
      exact ih _

theorem dictGet_foldl (es : List (Nat × List CffNum)) (d : List (Nat × List CffNum)) (op : Nat) :
    dictGet (es.foldl (fun d e => dictSet d e.1 e.2) d) op = (operandsOf es op <|> dictGet d op) := by
  induction es generalizing d with
  | nil => rfl
  | cons e es ih =>
    rw [List.foldl_cons, ih, dictGet_dictSet]
    unfold operandsOf
    rw [List.reverse_cons, List.find?_append]
    cases h : es.reverse.find? fun e => decide (e.1 = op) with
    | some x => rfl
    | none =>
      by_cases he : e.1 = op
      · simp [he]
      · simp [he]

/-- **C101.** The operands of an operator are the last ones that are written for it, in dictionaries without operators of two bytes. -/
theorem cff_dict_partial {es : List (Nat × List CffNum)} {t : Bytes} (h : CffDictData es t) (h1 : ∀ e ∈ es, e.1 ≤ 21) :
    ∃ d, cffDict t = .ok d ∧ ∀ op, dictGet d op = operandsOf es op := by
  refine ⟨_, cffDictLoop_entries h h1 [], fun op => ?_⟩
  rw [dictGet_foldl]
  cases operandsOf es op <;> rfl

/-! ### Indexes -/

theorem cffRead_prefix {data t rest : Bytes} {pos : Nat} (h : data.drop pos = t ++ rest) : cffRead data pos t.length = (t, pos + t.length) := by
  unfold cffRead
  rw [if_neg (by omega), h]
  simp

theorem drop_past {data t rest : Bytes} {pos : Nat} (h : data.drop pos = t ++ rest) : data.drop (pos + t.length) = rest := by
  rw [← List.drop_drop, h, List.drop_left]

theorem cff_offsets {data : Bytes} {size : Nat} (h1 : 1 ≤ size) (h4 : size ≤ 4) : ∀ (os : List Bytes) (pos : Nat) (rest : Bytes),
    (∀ o ∈ os, o.length = size) → data.drop pos = os.flatten ++ rest →
    cffOffsets data size os.length pos = .ok (os.map beValue, pos + os.flatten.length)
  | [], pos, rest, _, _ => by simp [cffOffsets]
  | o :: os, pos, rest, h, hd => by
    have ho := h o (by simp)
    rw [List.flatten_cons, List.append_assoc] at hd
    have hr := cffRead_prefix hd
    rw [ho] at hr
    have ih := cff_offsets h1 h4 os (pos + size) rest (fun x hx => h x (by simp [hx])) (by rw [← ho]; exact drop_past hd)
    rw [List.length_cons, cffOffsets, hr]
    dsimp only
    rw [nunpack_be (by omega) (by omega)]
    dsimp only
    rw [ih]
    simp only [List.map_cons, List.flatten_cons, List.length_append, ho, Nat.add_assoc]

theorem offsetsFrom_length (p : Nat) (items : List Bytes) : (offsetsFrom p items).length = items.length + 1 := by
  induction items generalizing p with
  | nil => rfl
  | cons x items ih => rw [offsetsFrom, List.length_cons, ih, List.length_cons]

theorem offsetsFrom_get (items : List Bytes) (p i : Nat) (h : i ≤ items.length) : (offsetsFrom p items)[i]? = some (p + (items.take i).flatten.length) := by
  induction items generalizing p i with
  | nil =>
    obtain rfl : i = 0 := by simpa using h
    rfl
  | cons x items ih =>
    cases i with
    | zero => rfl
    | succ i =>
      rw [offsetsFrom, List.getElem?_cons_succ, ih _ _ (by simpa using h)]
      simp [Nat.add_assoc]

theorem cffIndex_read {data : Bytes} {pos : Nat} {a b size : UInt8} (h : cffRead data pos 3 = ([a, b, size], pos + 3)) :
    cffIndex data pos = match cffOffsets data size.toNat (a.toNat * 256 + b.toNat + 1) (pos + 3) with
      | .error e => .error e
      | .ok (os, pos) => .ok (⟨os, pos - 1⟩, pos - 1 + os.getLast?.getD 0) := by
  unfold cffIndex
  rw [h]
  dsimp only
  rcases cffOffsets data size.toNat (a.toNat * 256 + b.toNat + 1) (pos + 3) with e | ⟨os, p⟩ <;> rfl

/-- **C101.** An index holds its objects, and what is after it is read next. If it has no objects, this needs that the next byte is 0. -/
theorem cff_index_partial {data t rest : Bytes} {items : List Bytes} {pos : Nat} (hd : data.drop pos = t ++ rest) (h : CffIndexData items t)
    (hne : items = [] → ∃ r, rest = 0 :: r) :
    ∃ x, cffIndex data pos = .ok (x, pos + t.length) ∧ Holds data x items := by
  cases h with
  | nil =>
    obtain ⟨r, rfl⟩ := hne rfl
    have hr : cffRead data pos 3 = ([0, 0, 0], pos + 3) := cffRead_prefix (t := [0, 0, 0]) hd
    have hr0 : cffRead data (pos + 3) 0 = ([], pos + 3) := cffRead_prefix (t := []) rfl
    refine ⟨⟨[0], pos + 2⟩, ?_, rfl, ?_, ?_⟩
    · rw [cffIndex_read hr, show (0 : UInt8).toNat * 256 + (0 : UInt8).toNat + 1 = 1 from rfl, show (0 : UInt8).toNat = 0 from rfl, cffOffsets]
      rw [show ((0 : Nat) : Int) = 0 from rfl, hr0]
      rfl
    · intro i b h; simp at h
    · intro i _
      unfold CffIndex.get
      rw [show ([0] : List Nat)[i + 1]? = none from rfl]
      split
      · rename_i h; cases h
      · rfl
  | @some items hi lo size os _ hn h1 h4 ho hb =>
    have hd0 : data.drop pos = [hi, lo, size] ++ (os.flatten ++ items.flatten ++ rest) := by rw [hd]; simp [List.append_assoc]
    have hr := cffRead_prefix hd0
    have hd1 : data.drop (pos + 3) = os.flatten ++ (items.flatten ++ rest) := by
      have := drop_past hd0; rw [← List.append_assoc]; exact this
    have hlen : os.length = hi.toNat * 256 + lo.toNat + 1 := by
      have e1 := congrArg List.length hb
      rw [List.length_map, offsetsFrom_length, ← hn] at e1
      simpa [beValue] using e1
    have hoff := cff_offsets h1 h4 os (pos + 3) _ ho hd1
    rw [hlen, hb] at hoff
    have hd2 : data.drop (pos + 3 + os.flatten.length) = items.flatten ++ rest := drop_past hd1
    have hlast : (offsetsFrom 1 items).getLast?.getD 0 = 1 + items.flatten.length := by
      rw [List.getLast?_eq_getElem?, offsetsFrom_length, Nat.add_sub_cancel, offsetsFrom_get _ _ _ (Nat.le_refl _), List.take_length]
      rfl
    refine ⟨⟨offsetsFrom 1 items, pos + 3 + os.flatten.length - 1⟩, ?_, ?_, ?_, ?_⟩
    · rw [cffIndex_read hr, hoff]
      simp only [hlast, Except.ok.injEq, Prod.mk.injEq, true_and, List.length_append, List.length_cons, List.length_nil]
      omega
    · simp [CffIndex.count, offsetsFrom_length]
    · intro i b hi
      have hlt : i < items.length := (List.getElem?_eq_some_iff.1 hi).1
      have hb' : items[i] = b := (List.getElem?_eq_some_iff.1 hi).2
      refine ⟨pos + 3 + os.flatten.length + (items.take i).flatten.length + b.length, ?_⟩
      unfold CffIndex.get
      dsimp only
      rw [offsetsFrom_get _ _ _ (by omega), offsetsFrom_get _ _ _ (by omega)]
      dsimp only
      have e1 : (items.take (i + 1)).flatten = (items.take i).flatten ++ b := by
        rw [← List.take_append_getElem hlt, hb']; simp
      have e2 : items.flatten = (items.take i).flatten ++ (b ++ (items.drop (i + 1)).flatten) := by
        conv_lhs => rw [← List.take_append_drop (i + 1) items, List.flatten_append, e1, List.append_assoc]
      have e3 : pos + 3 + os.flatten.length - 1 + (1 + (items.take i).flatten.length) = pos + 3 + os.flatten.length + (items.take i).flatten.length := by omega
      have e4 : (((1 + (items.take (i + 1)).flatten.length : Nat) : Int) - ((1 + (items.take i).flatten.length : Nat) : Int)) = (b.length : Int) := by
        rw [e1, List.length_append]; omega
      have e5 : data.drop (pos + 3 + os.flatten.length + (items.take i).flatten.length) = b ++ ((items.drop (i + 1)).flatten ++ rest) := by
        apply drop_past (t := (items.take i).flatten)
        · rw [hd2, e2]; simp [List.append_assoc]
      rw [e3, e4, cffRead_prefix e5]
    · intro i hi
      unfold CffIndex.get
      dsimp only
      have : (offsetsFrom 1 items)[i + 1]? = none := by
        rw [List.getElem?_eq_none_iff, offsetsFrom_length]; omega
      rw [this]
      split
      · rename_i h; cases h
      · rfl

/-! ### Fonts -/

theorem cffRead_one {data rest : Bytes} {pos : Nat} {b : UInt8} (h : data.drop pos = b :: rest) : cffRead data pos 1 = ([b], pos + 1) :=
  cffRead_prefix (t := [b]) h

theorem cffRead_two {data rest : Bytes} {pos : Nat} {a b : UInt8} (h : data.drop pos = a :: b :: rest) : cffRead data pos 2 = ([a, b], pos + 2) :=
  cffRead_prefix (t := [a, b]) h

theorem cff_codeRanges (data : Bytes) : ∀ (rs : List (UInt8 × UInt8)) (rest : Bytes) (pos code : Nat) (m : CffMaps Nat),
    data.drop pos = (rs.flatMap fun r => [r.1, r.2]) ++ rest → ∃ m', cffCodeRanges data rs.length pos code m = .ok m'
  | [], _, _, _, m, _ => ⟨m, rfl⟩
  | r :: rs, rest, pos, code, m, h => by
    rw [List.flatMap_cons] at h
    have h2 := cffRead_two (a := r.1) (b := r.2) h
    have h3 : data.drop (pos + 2) = (rs.flatMap fun r => [r.1, r.2]) ++ rest :=
      drop_past (t := [r.1, r.2]) (by rw [h, List.append_assoc])
    obtain ⟨m', hm⟩ := cff_codeRanges data rs rest (pos + 2) (code + (r.2.toNat + 1)) (cffCodeRange (r.2.toNat + 1) r.1.toNat code m) h3
    refine ⟨m', ?_⟩
    rw [List.length_cons, cffCodeRanges, h2]
    exact hm

theorem cff_encoding {data t rest : Bytes} {codes : List Nat} {pos : Nat} (hd : data.drop pos = t ++ rest) (h : CffEncodingData codes t) :
    ∃ m, cffEncoding data pos = .ok m := by
  cases h with
  | @codes n cs hn =>
    have h0 := cffRead_one hd
    have hd1 : data.drop (pos + 1) = n :: (cs ++ rest) := drop_past (t := [0]) hd
    have h1 := cffRead_one hd1
    have hd2 : data.drop (pos + 2) = cs ++ rest := drop_past (t := [n]) hd1
    have h2 := cffRead_prefix hd2
    rw [hn] at h2
    refine ⟨cffCodes cs 0 {}, ?_⟩
    unfold cffEncoding
    rw [h0]
    dsimp only
    rw [h1]
    dsimp only
    rw [h2]
    dsimp only
    rw [if_pos hn]
    rfl
  | @ranges n rs hn =>
    have h0 := cffRead_one hd
    have hd1 : data.drop (pos + 1) = n :: ((rs.flatMap fun r => [r.1, r.2]) ++ rest) := drop_past (t := [1]) hd
    have h1 := cffRead_one hd1
    have hd2 : data.drop (pos + 2) = (rs.flatMap fun r => [r.1, r.2]) ++ rest := drop_past (t := [n]) hd1
    obtain ⟨m, hm⟩ := cff_codeRanges data rs rest (pos + 2) 0 {} hd2
    refine ⟨m, ?_⟩
    unfold cffEncoding
    rw [h0]
    dsimp only
    rw [h1]
    dsimp only
    rw [← hn]
    exact hm

theorem cffStrings_length : cffStrings.length = 391 := by decide +kernel

/-- The strings with a number are found. -/
theorem cff_string {data : Bytes} {x : CffIndex} {strings : List Bytes} (hx : Holds data x strings) {sid : Nat} {name : CffName} (h : StringOf strings sid name)
    (pos : Nat) : ∃ p, cffString data x sid pos = .ok (name, p) := by
  unfold cffString
  cases h with
  | std h => rw [h]; exact ⟨_, rfl⟩
  | own h h' =>
    have : cffStrings[sid]? = none := by rw [List.getElem?_eq_none_iff, cffStrings_length]; exact h
    obtain ⟨p, hp⟩ := hx.item _ _ h'
    rw [this]
    dsimp only
    rw [hp]
    exact ⟨_, rfl⟩

/-- The maps with the names of the glyphs from `gid` on. -/
def enterNames : List CffName → Nat → CffMaps CffName → CffMaps CffName
  | [], _, m => m
  | n :: ns, gid, m => enterNames ns (gid + 1) (m.add n gid)

theorem cff_names {data : Bytes} {x : CffIndex} {strings : List Bytes} (hx : Holds data x strings) : ∀ (ss : List Bytes) (ns : List CffName) (gid : Nat)
    (m : CffMaps CffName), (∀ s ∈ ss, s.length = 2) → List.Forall₂ (StringOf strings) (ss.map beValue) ns →
    cffNames data x ss.flatten gid m = .ok (enterNames ns gid m)
  | [], ns, gid, m, _, h => by cases h; simp [cffNames, enterNames]
  | s :: ss, ns, gid, m, hs, h => by
    have h2 := hs s (by simp)
    match s, h2 with
    | [a, b], _ =>
      cases h with
      | @cons _ n _ ns h h' =>
        have e : beValue [a, b] = a.toNat * 256 + b.toNat := by simp [beValue]
        obtain ⟨p, hp⟩ := cff_string hx h 0
        rw [e] at hp
        simp only [List.flatten_cons, List.cons_append, List.nil_append, cffNames, hp, enterNames]
        exact cff_names hx ss ns (gid + 1) _ (fun s hs' => hs s (by simp [hs'])) h'

theorem enterNames_of (ns : List CffName) (gid g : Nat) (m : CffMaps CffName) : dictGet (enterNames ns gid m).ofGid g =
    if gid ≤ g ∧ g < gid + ns.length then ns[g - gid]? else dictGet m.ofGid g := by
  induction ns generalizing gid m with
  | nil => rw [enterNames, if_neg (by simp)]
  | cons n ns ih =>
    rw [enterNames, ih, CffMaps.add]
    dsimp only
    rw [dictGet_dictSet]
    by_cases h : gid = g
    · subst h; simp
    · rw [if_neg h]
      by_cases h2 : gid + 1 ≤ g ∧ g < gid + 1 + ns.length
      · rw [if_pos h2, if_pos (by simp only [List.length_cons]; omega)]
        obtain ⟨k, rfl⟩ : ∃ k, g = gid + 1 + k := ⟨g - (gid + 1), by omega⟩
        rw [show gid + 1 + k - (gid + 1) = k by omega, show gid + 1 + k - gid = k + 1 by omega, List.getElem?_cons_succ]
      · rw [if_neg h2, if_neg (by simp only [List.length_cons]; omega)]

theorem enterNames_to (ns : List CffName) (gid : Nat) (m : CffMaps CffName) (name : CffName) :
    (name ∉ ns ∧ dictGet (enterNames ns gid m).toGid name = dictGet m.toGid name) ∨
    ∃ g, dictGet (enterNames ns gid m).toGid name = some g ∧ gid ≤ g ∧ ns[g - gid]? = some name := by
  induction ns generalizing gid m with
  | nil => exact Or.inl ⟨by simp, rfl⟩
  | cons n ns ih =>
    rw [enterNames]
    rcases ih (gid + 1) (m.add n gid) with ⟨h1, h2⟩ | ⟨g, h1, h2, h3⟩
    · rw [h2, CffMaps.add]
      dsimp only
      rw [dictGet_dictSet]
      by_cases h : n = name
      · subst h
        exact Or.inr ⟨gid, by simp, Nat.le_refl _, by simp⟩
      · rw [if_neg h]
        refine Or.inl ⟨?_, rfl⟩
        rintro (_ | ⟨_, hm⟩)
        · exact h rfl
        · exact h1 hm
    · refine Or.inr ⟨g, h1, by omega, ?_⟩
      obtain ⟨k, rfl⟩ : ∃ k, g = gid + 1 + k := ⟨g - (gid + 1), by omega⟩
      rw [show gid + 1 + k - (gid + 1) = k by omega] at h3
      rw [show gid + 1 + k - gid = k + 1 by omega, List.getElem?_cons_succ, h3]

theorem flatten_two {ss : List Bytes} (h : ∀ s ∈ ss, s.length = 2) : ss.flatten.length = 2 * ss.length := by
  induction ss with
  | nil => rfl
  | cons s ss ih =>
    rw [List.flatten_cons, List.length_append, ih (fun s hs => h s (by simp [hs])), h s (by simp), List.length_cons]
    omega

theorem cff_charset {data t rest : Bytes} {x : CffIndex} {strings : List Bytes} {sids : List Nat} {ns : List CffName} {pos : Nat} (hx : Holds data x strings)
    (hd : data.drop pos = t ++ rest) (h : CffCharsetData 0 sids t) (hns : List.Forall₂ (StringOf strings) sids ns) :
    cffCharset data x (sids.length + 1) pos = .ok (enterNames ns 1 {}) := by
  cases h with
  | @names ss hs =>
    have h0 := cffRead_one hd
    have hd1 : data.drop (pos + 1) = ss.flatten ++ rest := drop_past (t := [0]) hd
    have h1 := cffRead_prefix hd1
    have hl := flatten_two hs
    rw [hl] at h1
    have e : (2 * ((((ss.map beValue).length + 1 : Nat) : Int) - 1)) = ((2 * ss.length : Nat) : Int) := by simp
    unfold cffCharset
    rw [h0]
    dsimp only
    rw [e, h1]
    dsimp only
    rw [if_pos (by rw [hl]; simp)]
    exact cff_names hx ss ns 1 {} hs hns

theorem cffPos_some {es d : List (Nat × List CffNum)} (hd : ∀ op, dictGet d op = operandsOf es op) {op : Nat} {p : Int} (h : operandsOf es op = some [.int p])
    (hp : 0 ≤ p) : cffPos d op = .ok p.toNat := by
  unfold cffPos
  rw [hd, h]
  simp only [Option.getD_some]
  rw [if_neg (by omega)]

theorem index_starts {items : List Bytes} {t : Bytes} (h : CffIndexData items t) (hl : items.length < 256) : ∃ r, t = 0 :: r := by
  cases h with
  | nil => exact ⟨_, rfl⟩
  | @some _ hi lo size os _ hn _ _ _ _ =>
    have e : beValue [hi, lo] = hi.toNat * 256 + lo.toNat := by simp [beValue]
    have h0 : hi = 0 := UInt8.toNat_inj.1 (by rw [e] at hn; show hi.toNat = 0; omega)
    subst h0
    exact ⟨_, rfl⟩

/-- **C102.** A font whose dictionary has only operators of one byte, with a charset of format 0, and, where an index has no objects, a zero byte after it: the objects of its indexes are found, its first dictionary is read, and each
glyph has the name that the charset says, and each name a glyph with that name. -/
theorem cff_font_partial {data : Bytes} {names strings subrs glyphs : List Bytes} {top : List (Nat × List CffNum)} {codes sids : List Nat} {ns : List CffName}
    {rest : Bytes} (h : CffFile data names strings subrs glyphs top codes 0 sids rest) (hs : strings = [] → subrs.length < 256)
    (hg : subrs = [] → ∃ r, rest = 0 :: r) (h21 : ∀ e ∈ top, e.1 ≤ 21) (hns : List.Forall₂ (StringOf strings) sids ns) :
    ∃ f, cffFont data = .ok f ∧ Holds data f.names names ∧ Holds data f.strings strings ∧ Holds data f.subrs subrs ∧ Holds data f.charstrings glyphs ∧
      (∀ op, dictGet f.top op = operandsOf top op) ∧
      (∀ g, dictGet f.charset.ofGid g = if g = 0 then none else ns[g - 1]?) ∧
      (∀ name ∈ ns, ∃ g, dictGet f.charset.toGid name = some g) ∧
      (∀ name g, dictGet f.charset.toGid name = some g → 0 < g ∧ ns[g - 1]? = some name) := by
  obtain ⟨major, minor, size, absolute, more, tn, td, tt, ts, tg, hdata, hsize, in1, dd, id1, is1, ig1⟩ := h.layout
  obtain ⟨pg, tgl, rg, og, pg0, dg, ig⟩ := h.glyphsAt
  obtain ⟨pe, te, re, oe, pe0, de, ie⟩ := h.encodingAt
  obtain ⟨pc, tc, rc, oc, pc0, dc, ic⟩ := h.charsetAt
  have d0 : data.drop 0 = [major, minor, size, absolute] ++ (more ++ (tn ++ (td ++ (ts ++ (tg ++ rest))))) := by
    rw [hdata]; simp [List.append_assoc]
  have r0 : cffRead data 0 4 = ([major, minor, size, absolute], 4) := cffRead_prefix d0
  have d1 : data.drop 4 = more ++ (tn ++ (td ++ (ts ++ (tg ++ rest)))) := drop_past (pos := 0) d0
  have r1 := cffRead_prefix d1
  have hh : cffHeader data = .ok (4 + more.length) := by
    unfold cffHeader
    rw [r0]
    dsimp only
    rw [show ((size.toNat : Int) - 4) = (more.length : Int) by omega, r1]
  have d2 := drop_past d1
  have starts : ∀ {items : List Bytes} {t : Bytes}, CffIndexData items t → items.length < 256 → ∀ s, ∃ r, t ++ s = 0 :: r := by
    intro items t hi hl s
    obtain ⟨r, rfl⟩ := index_starts hi hl
    exact ⟨_, rfl⟩
  obtain ⟨xn, en, hxn⟩ := cff_index_partial d2 in1 fun _ => starts id1 (by simp) _
  have d3 := drop_past d2
  obtain ⟨xd, ed, hxd⟩ := cff_index_partial d3 id1 (by simp)
  have d4 := drop_past d3
  obtain ⟨xs, es, hxs⟩ := cff_index_partial d4 is1 fun e => starts ig1 (hs e) _
  have d5 := drop_past d4
  obtain ⟨xg, eg, hxg⟩ := cff_index_partial d5 ig1 hg
  obtain ⟨p0, hp0⟩ := hxd.item 0 tt rfl
  obtain ⟨d, hdict, hget⟩ := cff_dict_partial dd h21
  have hgl : glyphs ≠ [] := by
    intro e
    have := h.count
    rw [e] at this
    simp at this
  obtain ⟨xc, ec, hxc⟩ := cff_index_partial dg ig fun e => absurd e hgl
  obtain ⟨m, hm⟩ := cff_encoding de ie
  have hcs := cff_charset hxs dc ic hns
  rw [h.count, ← hxc.count] at hcs
  refine ⟨⟨xn, xd, xs, xg, d, xc, m, enterNames ns 1 {}⟩, ?_, hxn, hxs, hxg, hxc, hget, ?_, ?_, ?_⟩
  · unfold cffFont
    simp only [hh, en, ed, es, eg, hp0, hdict, cffPos_some hget oc pc0, cffPos_some hget oe pe0, cffPos_some hget og pg0, ec, hm, hcs, bind, Except.bind]
  · intro g
    dsimp only
    rw [enterNames_of]
    by_cases h0 : g = 0
    · subst h0; rw [if_neg (by omega), if_pos rfl]; rfl
    · rw [if_neg h0]
      by_cases h1 : 1 ≤ g ∧ g < 1 + ns.length
      · rw [if_pos h1]
      · rw [if_neg h1, List.getElem?_eq_none (by omega)]; rfl
  · intro name hname
    rcases enterNames_to ns 1 {} name with ⟨h1, _⟩ | ⟨g, h1, _⟩
    · exact absurd hname h1
    · exact ⟨g, h1⟩
  · intro name g hg'
    dsimp only at hg'
    rcases enterNames_to ns 1 {} name with ⟨_, h2⟩ | ⟨g', h1, h2, h3⟩
    · rw [h2] at hg'; cases hg'
    · rw [h1] at hg'; cases hg'; exact ⟨by omega, h3⟩

/-! ### Witnesses -/

/-- A font with two glyphs besides the one without name: `A`, and one with a name of its own. -/
def sampleCff : Bytes :=
  [1, 0, 4, 1, 0, 1, 1, 1, 2, 70, 0, 1, 1, 1, 13, 28, 0, 40, 15, 28, 0, 45, 16, 28, 0, 49, 17, 0, 1, 1, 1, 3, 120, 121, 0, 1, 1, 1, 2, 11, 0, 0, 34, 1,
   135, 0, 2, 65, 66, 0, 3, 1, 1, 2, 3, 4, 14, 14, 14]

theorem sample_offset {v : Int} {a b : UInt8} (h1 : -32768 ≤ v) (h2 : v ≤ 32767) (ha : lowByte (v / 256) = a) (hb : lowByte v = b) :
    List.Forall₂ CffNumber [.int v] [[28, a, b]] := by
  subst ha hb
  exact .cons (.int (.two h1 h2)) .nil

theorem sample_top (c e g : UInt8) (hc : c.toNat < 128) (he : e.toNat < 128) (hg : g.toNat < 128) :
    CffDictData [(15, [.int c.toNat]), (16, [.int e.toNat]), (17, [.int g.toNat])] [28, 0, c, 15, 28, 0, e, 16, 28, 0, g, 17] := by
  have hz : ∀ b : UInt8, b.toNat < 128 → lowByte ((b.toNat : Int) / 256) = 0 ∧ lowByte (b.toNat : Int) = b := by
    refine forall_byte ?_; decide +kernel
  refine .cons (t := [28, 0, e, 16, 28, 0, g, 17]) (.one (op := 15) (by decide) (by decide)) (sample_offset (by omega) (by omega) (hz c hc).1 (hz c hc).2) ?_
  refine .cons (t := [28, 0, g, 17]) (.one (op := 16) (by decide) (by decide)) (sample_offset (by omega) (by omega) (hz e he).1 (hz e he).2) ?_
  exact .cons (t := []) (.one (op := 17) (by decide) (by decide)) (sample_offset (by omega) (by omega) (hz g hg).1 (hz g hg).2) .nil

theorem sample_index {items os : List Bytes} {hi lo : UInt8} (h1 : items ≠ []) (h2 : beValue [hi, lo] = items.length) (h3 : ∀ o ∈ os, o.length = 1)
    (h4 : os.map beValue = offsetsFrom 1 items) : CffIndexData items ([hi, lo, 1] ++ os.flatten ++ items.flatten) :=
  .some h1 h2 (by decide) (by decide) h3 h4

theorem sampleCff_file : CffFile sampleCff [[70]] [[120, 121]] [[11]] [[14], [14], [14]] [(15, [.int 40]), (16, [.int 45]), (17, [.int 49])] [65, 66] 0 [34, 391]
    [0, 0, 34, 1, 135, 0, 2, 65, 66, 0, 3, 1, 1, 2, 3, 4, 14, 14, 14] where
  layout := by
    refine ⟨1, 0, 4, 1, [], [0, 1, 1, 1, 2, 70], [0, 1, 1, 1, 13, 28, 0, 40, 15, 28, 0, 45, 16, 28, 0, 49, 17], [28, 0, 40, 15, 28, 0, 45, 16, 28, 0, 49, 17],
      [0, 1, 1, 1, 3, 120, 121], [0, 1, 1, 1, 2, 11], rfl, rfl, ?_, ?_, ?_, ?_, ?_⟩
    · exact sample_index (items := [[70]]) (os := [[1], [2]]) (hi := 0) (lo := 1) (by simp) rfl (by decide) (by decide)
    · exact sample_top 40 45 49 (by decide) (by decide) (by decide)
    · exact sample_index (items := [[28, 0, 40, 15, 28, 0, 45, 16, 28, 0, 49, 17]]) (os := [[1], [13]]) (hi := 0) (lo := 1) (by simp) rfl (by decide) (by decide)
    · exact sample_index (items := [[120, 121]]) (os := [[1], [3]]) (hi := 0) (lo := 1) (by simp) rfl (by decide) (by decide)
    · exact sample_index (items := [[11]]) (os := [[1], [2]]) (hi := 0) (lo := 1) (by simp) rfl (by decide) (by decide)
  glyphsAt := ⟨49, _, [], rfl, by decide, rfl,
    sample_index (items := [[14], [14], [14]]) (os := [[1], [2], [3], [4]]) (hi := 0) (lo := 3) (by simp) rfl (by decide) (by decide)⟩
  encodingAt := ⟨45, [0, 2, 65, 66], _, rfl, by decide, rfl, .codes (n := 2) (cs := [65, 66]) rfl⟩
  charsetAt := ⟨40, [0, 0, 34, 1, 135], _, rfl, by decide, rfl, .names (ss := [[0, 34], [1, 135]]) (by decide)⟩
  count := rfl

/-- A font as in `cff_font_partial`. -/
theorem sampleCff_names : ∃ f, cffFont sampleCff = .ok f ∧ dictGet f.charset.ofGid 1 = some (.std "A") ∧ dictGet f.charset.ofGid 2 = some (.own [120, 121]) := by
  have hns : List.Forall₂ (StringOf [[120, 121]]) [34, 391] [.std "A", .own [120, 121]] :=
    .cons (.std (by decide +kernel)) (.cons (.own (by decide) rfl) .nil)
  obtain ⟨f, h1, _, _, _, _, _, h2, _⟩ := cff_font_partial sampleCff_file (by simp) (by simp) (by decide) hns
  exact ⟨f, h1, by rw [h2]; rfl, by rw [h2]; rfl⟩

/-- **C102**, refuted: the first glyph has the code 65, but the code 65 has no glyph, and the code 0 has the glyph 65. -/
theorem cff_encoding_counterexample : CffFile sampleCff [[70]] [[120, 121]] [[11]] [[14], [14], [14]] [(15, [.int 40]), (16, [.int 45]), (17, [.int 49])] [65, 66] 0
      [34, 391] [0, 0, 34, 1, 135, 0, 2, 65, 66, 0, 3, 1, 1, 2, 3, 4, 14, 14, 14] ∧
    ∃ f, cffFont sampleCff = .ok f ∧ dictGet f.encoding.toGid 65 = none ∧ dictGet f.encoding.toGid 0 = some 65 := by
  refine ⟨sampleCff_file, ?_⟩
  have h : (cffFont sampleCff).toOption.map (fun f => (dictGet f.encoding.toGid 65, dictGet f.encoding.toGid 0)) = some (none, some 65) := by decide +kernel
  cases hf : cffFont sampleCff with
  | error e => rw [hf] at h; cases h
  | ok f =>
    rw [hf] at h
    simp only [Except.toOption, Option.map_some, Option.some.injEq, Prod.mk.injEq] at h
    exact ⟨f, rfl, h.1, h.2⟩

/-- The same font with a charset of format 1. -/
def rangeCff : Bytes :=
  [1, 0, 4, 1, 0, 1, 1, 1, 2, 70, 0, 1, 1, 1, 13, 28, 0, 40, 15, 28, 0, 44, 16, 28, 0, 48, 17, 0, 1, 1, 1, 3, 120, 121, 0, 1, 1, 1, 2, 11, 1, 0, 34, 1, 0,
   2, 65, 66, 0, 3, 1, 1, 2, 3, 4, 14, 14, 14]

/-- **C102**, refuted: ranges of names are not read. -/
theorem cff_ranges_counterexample : CffFile rangeCff [[70]] [[120, 121]] [[11]] [[14], [14], [14]] [(15, [.int 40]), (16, [.int 44]), (17, [.int 48])] [65, 66] 1
      [34, 35] [1, 0, 34, 1, 0, 2, 65, 66, 0, 3, 1, 1, 2, 3, 4, 14, 14, 14] ∧
    ∃ f, cffFont rangeCff = .ok f ∧ f.charset.ofGid = [] := by
  constructor
  · refine ⟨?_, ?_, ?_, ?_, rfl⟩
    · refine ⟨1, 0, 4, 1, [], [0, 1, 1, 1, 2, 70], [0, 1, 1, 1, 13, 28, 0, 40, 15, 28, 0, 44, 16, 28, 0, 48, 17], [28, 0, 40, 15, 28, 0, 44, 16, 28, 0, 48, 17],
        [0, 1, 1, 1, 3, 120, 121], [0, 1, 1, 1, 2, 11], rfl, rfl, ?_, ?_, ?_, ?_, ?_⟩
      · exact sample_index (items := [[70]]) (os := [[1], [2]]) (hi := 0) (lo := 1) (by simp) rfl (by decide) (by decide)
      · exact sample_top 40 44 48 (by decide) (by decide) (by decide)
      · exact sample_index (items := [[28, 0, 40, 15, 28, 0, 44, 16, 28, 0, 48, 17]]) (os := [[1], [13]]) (hi := 0) (lo := 1) (by simp) rfl (by decide) (by decide)
      · exact sample_index (items := [[120, 121]]) (os := [[1], [3]]) (hi := 0) (lo := 1) (by simp) rfl (by decide) (by decide)
      · exact sample_index (items := [[11]]) (os := [[1], [2]]) (hi := 0) (lo := 1) (by simp) rfl (by decide) (by decide)
    · exact ⟨48, _, [], rfl, by decide, rfl,
        sample_index (items := [[14], [14], [14]]) (os := [[1], [2], [3], [4]]) (hi := 0) (lo := 3) (by simp) rfl (by decide) (by decide)⟩
    · exact ⟨44, [0, 2, 65, 66], _, rfl, by decide, rfl, .codes (n := 2) (cs := [65, 66]) rfl⟩
    · exact ⟨40, [1, 0, 34, 1], _, rfl, by decide, rfl, .ranges (rs := [([0, 34], 1)]) (by decide)⟩
  · have h : (cffFont rangeCff).toOption.map (fun f => f.charset.ofGid) = some [] := by decide +kernel
    cases hf : cffFont rangeCff with
    | error e => rw [hf] at h; cases h
    | ok f =>
      rw [hf] at h
      simp only [Except.toOption, Option.map_some, Option.some.injEq] at h
      exact ⟨f, rfl, h⟩

/-- **C101**, refuted: an index without objects takes two bytes, but a third one is read as the size of offsets. Here it is the first byte of another index. -/
theorem cff_index_counterexample : ∃ data rest, data = [0, 0] ++ rest ∧ CffIndexData [] [0, 0] ∧ ∃ x p, cffIndex data 0 = .ok (x, p) ∧ p ≠ 2 :=
  ⟨[0, 0, 1, 0, 1], _, rfl, .nil, ⟨[0], 3⟩, 3, by decide +kernel, by decide⟩

/-- At the end of a file it is an error. -/
theorem cff_index_end_counterexample : CffIndexData [] [0, 0] ∧ cffIndex [0, 0] 0 = .error .structError := ⟨.nil, by decide +kernel⟩

/-- **C101**, refuted: an operator of two bytes, here the angle of italics, is taken for two operators, and the second one loses its operands, here those of
the full name. -/
theorem cff_operator_counterexample : ∃ es t d, CffDictData es t ∧ cffDict t = .ok d ∧ operandsOf es 2 = some [.int 0] ∧ dictGet d 2 = some [] := by
  have hn : List.Forall₂ CffNumber [.int 0] [[139]] := .cons (.int (.one (v := 0) (by decide) (by decide))) .nil
  refine ⟨[(2, [.int 0]), (3074, [.int 0])], [139, 2, 139, 12, 2], [(2, []), (12, [.int 0])], ?_, by decide +kernel, rfl, rfl⟩
  exact .cons (t := [139, 12, 2]) (.one (op := 2) (by decide) (by decide)) hn (.cons (t := []) (.two (b := 2)) hn .nil)

end Pdf

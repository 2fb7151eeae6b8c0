import Verif.Proofs.LexSim
import Verif.Spec.Token
/-! The tokenizer reads every spelling the specification allows. -/

namespace Pdf
open Spec (White Delim Digit StrBody HexBody NameBody Spells Text Sign Ends)

theorem forall_byte {P : UInt8 → Prop} (h : ∀ n < 256, P (UInt8.ofNat n)) (c : UInt8) : P c := by
  have := h c.toNat (UInt8.toNat_lt c)
  rwa [UInt8.ofNat_toNat] at this

theorem white_iff (c : UInt8) : isSpace c = true ↔ White c := by
  revert c; refine forall_byte ?_; decide +kernel
theorem delim_iff (c : UInt8) : isEndWord c = true ↔ Delim c := by
  revert c; refine forall_byte ?_; decide +kernel
theorem digit_iff (c : UInt8) : isDigit c = true ↔ Digit c := by
  revert c; refine forall_byte ?_; decide +kernel
theorem eol_iff (c : UInt8) : isEol c = true ↔ (c = 10 ∨ c = 13) := by
  revert c; refine forall_byte ?_; decide +kernel
theorem alpha_iff (c : UInt8) : isAlpha c = true ↔ ((65 ≤ c.toNat ∧ c.toNat ≤ 90) ∨ (97 ≤ c.toNat ∧ c.toNat ≤ 122)) := by
  revert c; refine forall_byte ?_; decide +kernel
theorem oct_iff (c : UInt8) : isOct c = true ↔ (48 ≤ c.toNat ∧ c.toNat ≤ 55) := by
  revert c; refine forall_byte ?_; decide +kernel
theorem hexDigit_spec (c : UInt8) : ∀ x, Spec.hexDigit c = some x →
    isHex c = true ∧ hexVal c = x ∧ x < 16 ∧ isSpace c = false := by
  have : Spec.hexDigit c = if isHex c then some (hexVal c) else none := by
    revert c; refine forall_byte ?_; decide +kernel
  have h2 : isHex c = true → hexVal c < 16 ∧ isSpace c = false := by
    revert c; refine forall_byte ?_; decide +kernel
  intro x hx
  rw [this] at hx
  split at hx
  · rename_i h; cases hx; exact ⟨h, rfl, h2 h⟩
  · cases hx

/-- Decimal values agree. -/
theorem decVal_eq (ds : Bytes) : decVal ds = Spec.decimal ds := by
  have : ∀ (ds : Bytes) (v : Nat), ds.foldl (fun v c => v * 10 + (c.toNat - 48)) v = v * 10 ^ ds.length + Spec.decimal ds := by
    intro ds
    induction ds with
    | nil => intro v; simp [Spec.decimal]
    | cons c cs ih =>
      intro v
      rw [List.foldl_cons, ih, Spec.decimal, List.length_cons, Nat.pow_succ, Nat.add_mul, Nat.mul_assoc, Nat.mul_comm 10]
      omega
  rw [decVal, this]; simp

/-- What it means that `e`, followed by `rest`, is read as one token. -/
def Reads (e : Bytes) (t : Tok) (rest : Bytes) : Prop :=
  ∀ p, lexRun {} p (e ++ rest) = Stream.pre [(p, t)] (lexRun {} (p + e.length) rest)

theorem lexRun_dispatch (p : Nat) (c : UInt8) (w : Bytes) (hc : isSpace c = false) :
    lexRun {} p (c :: w) =
      Stream.pre (mainDispatch {} p c).2 (lexRun (mainDispatch {} p c).1 (p + 1) w) :=
  lexRun_ok (by simp [lexStep, stepMain, hc]) w

/-- A state that hands `c` over to the main state. -/
theorem lexRun_hand {st : LexSt} {p c toks} (h : lexStep st p c = .ok (toMain st toks p c)) (cs : Bytes) :
    lexRun st p (c :: cs) = Stream.pre toks (lexRun {} p (c :: cs)) := by
  rw [lexRun_toMain h, lexRun_main { st with fn := .main } rfl]

theorem digit_facts (c : UInt8) (h : Digit c) : isSpace c = false ∧ isDigit c = true ∧ c ≠ 37 ∧ c ≠ 47 ∧ c ≠ 45 ∧ c ≠ 43 ∧ c ≠ 46 := by
  revert c; refine forall_byte ?_; decide +kernel

theorem mainDispatch_number {c : UInt8} (p : Nat) (h : Digit c ∨ c = 45 ∨ c = 43) :
    isSpace c = false ∧ mainDispatch {} p c = ({ fn := .number, cur := [c], tpos := p }, []) := by
  rcases h with h | h | h
  · obtain ⟨h1, h2, h3, h4, h5, h6, h7⟩ := digit_facts c h
    refine ⟨h1, ?_⟩
    simp [mainDispatch, h3, h4, h2]
  · subst h; exact ⟨by decide, rfl⟩
  · subst h; exact ⟨by decide, rfl⟩

theorem sign_split {s f} (h : Sign s f) (ds : Bytes) (hd : ∀ c ∈ ds.head?, c ≠ 45 ∧ c ≠ 43) :
    ∃ neg, splitSign (s ++ ds) = (neg, ds) ∧ ∀ n, applySign neg n = f n := by
  cases h with
  | none =>
    refine ⟨false, ?_, fun n => rfl⟩
    cases ds with
    | nil => rfl
    | cons c cs => have := hd c (by simp); simp [splitSign, this]
  | plus => exact ⟨false, rfl, fun n => rfl⟩
  | minus => exact ⟨true, rfl, fun n => rfl⟩

/-- The number state after the first byte(s). -/
theorem run_number (cur : Bytes) (tpos p : Nat) (u rest : Bytes) (hu : ∀ c ∈ u, Digit c) :
    lexRun { fn := .number, cur := cur, tpos := tpos } p (u ++ rest) =
      lexRun { fn := .number, cur := cur ++ u, tpos := tpos } (p + u.length) rest :=
  lexRun_collect .number (fun c => !isDigit c) step_number u _ p rest rfl
    (fun c hc => by simp [(digit_iff c).mpr (hu c hc)])

theorem run_float (cur : Bytes) (tpos p : Nat) (u rest : Bytes) (hu : ∀ c ∈ u, Digit c) :
    lexRun { fn := .float, cur := cur, tpos := tpos } p (u ++ rest) =
      lexRun { fn := .float, cur := cur ++ u, tpos := tpos } (p + u.length) rest :=
  lexRun_collect .float (fun c => !isDigit c) step_float u _ p rest rfl
    (fun c hc => by simp [(digit_iff c).mpr (hu c hc)])

theorem not_digit_iff {c : UInt8} (h : ¬ Digit c) : isDigit c = false := by
  rw [← Bool.not_eq_true, digit_iff]; exact h

theorem run_number_end (cur : Bytes) (tpos p : Nat) (c : UInt8) (w : Bytes) (n : Int) (h1 : ¬ Digit c) (h2 : c ≠ 46)
    (hi : intOf cur = some n) :
    lexRun { fn := .number, cur := cur, tpos := tpos } p (c :: w) = Stream.pre [(tpos, .int n)] (lexRun {} p (c :: w)) := by
  refine lexRun_hand ?_ w
  simp [lexStep, stepNumber, not_digit_iff h1, h2, intToks, hi]

theorem run_float_end (cur : Bytes) (tpos p : Nat) (c : UInt8) (w : Bytes) (m : Int) (k : Nat) (h1 : ¬ Digit c)
    (hi : floatOf cur = some (m, k)) :
    lexRun { fn := .float, cur := cur, tpos := tpos } p (c :: w) = Stream.pre [(tpos, .real m k)] (lexRun {} p (c :: w)) := by
  refine lexRun_hand ?_ w
  simp [lexStep, stepFloat, not_digit_iff h1, floatToks, hi]

theorem sign_digits_head {s : Bytes} {f} (h : Sign s f) (ds : Bytes) (hne : ds ≠ []) (hd : ∀ c ∈ ds, Digit c) :
    ∃ c cs, s ++ ds = c :: cs ∧ (Digit c ∨ c = 45 ∨ c = 43) ∧ ∀ x ∈ cs, Digit x := by
  obtain ⟨d, ds', rfl⟩ := List.exists_cons_of_ne_nil hne
  cases h with
  | none => exact ⟨d, ds', rfl, Or.inl (hd d (by simp)), fun x hx => hd x (by simp [hx])⟩
  | plus => exact ⟨43, d :: ds', rfl, by simp, hd⟩
  | minus => exact ⟨45, d :: ds', rfl, by simp, hd⟩

theorem reads_int {s f ds rest} (hs : Sign s f) (hne : ds ≠ []) (hd : ∀ c ∈ ds, Digit c)
    (hr : ∃ c r, rest = c :: r ∧ ¬ Digit c ∧ c ≠ 46) : Reads (s ++ ds) (.int (f (Spec.decimal ds))) rest := by
  intro p
  obtain ⟨c, cs, h1, h2, h3⟩ := sign_digits_head hs ds hne hd
  obtain ⟨d, r, rfl, hd1, hd2⟩ := hr
  have hhead : ∀ c ∈ ds.head?, c ≠ 45 ∧ c ≠ 43 := by
    intro c hc
    have := digit_facts c (hd c (List.mem_of_mem_head? hc))
    exact ⟨this.2.2.2.2.1, this.2.2.2.2.2.1⟩
  obtain ⟨neg, hn1, hn2⟩ := sign_split hs ds hhead
  have hint : intOf (s ++ ds) = some (f (Spec.decimal ds)) := by
    simp [intOf, hn1, hne, hn2, decVal_eq]
  rw [h1] at hint ⊢
  obtain ⟨m1, m2⟩ := mainDispatch_number p h2
  rw [List.cons_append, lexRun_dispatch _ _ _ m1, m2]
  dsimp only
  rw [Stream.pre_nil, run_number _ _ _ _ _ h3, List.singleton_append, run_number_end _ _ _ _ _ _ hd1 hd2 hint]
  simp [Nat.add_comm, Nat.add_left_comm]

theorem takeWhile_digits (ip fp : Bytes) (h : ∀ c ∈ ip, Digit c) :
    (ip ++ 46 :: fp).takeWhile (· != 46) = ip ∧ (ip ++ 46 :: fp).dropWhile (· != 46) = 46 :: fp := by
  induction ip with
  | nil => simp
  | cons c cs ih =>
    have hc := (digit_facts c (h c (by simp))).2.2.2.2.2.2
    obtain ⟨i1, i2⟩ := ih (fun x hx => h x (by simp [hx]))
    simp [hc, i1, i2]

theorem reads_real {s f ip fp rest} (hs : Sign s f) (hne : ip ≠ [] ∨ fp ≠ []) (hip : ∀ c ∈ ip, Digit c)
    (hfp : ∀ c ∈ fp, Digit c) (hr : ∃ c r, rest = c :: r ∧ ¬ Digit c ∧ c ≠ 46) :
    Reads (s ++ ip ++ 46 :: fp) (.real (f (Spec.decimal (ip ++ fp))) fp.length) rest := by
  intro p
  obtain ⟨d, r, rfl, hd1, hd2⟩ := hr
  have hhead : ∀ c ∈ (ip ++ 46 :: fp).head?, c ≠ 45 ∧ c ≠ 43 := by
    intro c hc
    cases ip with
    | nil => simp at hc; subst hc; decide
    | cons x xs =>
      simp at hc; subst hc
      have := digit_facts x (hip x (by simp))
      exact ⟨this.2.2.2.2.1, this.2.2.2.2.2.1⟩
  obtain ⟨neg, hn1, hn2⟩ := sign_split hs (ip ++ 46 :: fp) hhead
  obtain ⟨t1, t2⟩ := takeWhile_digits ip fp hip
  have hfl : floatOf (s ++ ip ++ 46 :: fp) = some (f (Spec.decimal (ip ++ fp)), fp.length) := by
    rw [List.append_assoc]
    simp only [floatOf, hn1, t1, t2, List.drop_succ_cons, List.drop_zero]
    rw [if_neg (by rcases hne with h | h <;> simp [h]), hn2, decVal_eq]
  -- from the float state on
  have key : ∀ q, lexRun { fn := .float, cur := s ++ ip ++ [46], tpos := p } q (fp ++ d :: r) =
      Stream.pre [(p, .real (f (Spec.decimal (ip ++ fp))) fp.length)] (lexRun {} (q + fp.length) (d :: r)) := by
    intro q
    rw [run_float _ _ _ _ _ hfp]
    rw [show s ++ ip ++ [46] ++ fp = s ++ ip ++ 46 :: fp by simp]
    exact run_float_end _ _ _ _ _ _ _ hd1 hfl
  by_cases hz : s ++ ip = []
  · -- the first byte is the dot
    rw [hz, List.nil_append]
    rw [List.append_eq_nil_iff] at hz
    have := key (p + 1)
    obtain ⟨rfl, rfl⟩ := hz
    rw [List.cons_append, lexRun_dispatch _ _ _ (by decide)]
    rw [show mainDispatch {} p 46 = ({ fn := .float, cur := [46], tpos := p }, []) from rfl]
    dsimp only
    rw [Stream.pre_nil]
    rw [show ([] ++ [] ++ [46] : Bytes) = [46] from rfl] at this
    rw [this]
    simp [Nat.add_comm, Nat.add_left_comm]
  · obtain ⟨c, cs, hc1, hc2, hc3⟩ : ∃ c cs, s ++ ip = c :: cs ∧ (Digit c ∨ c = 45 ∨ c = 43) ∧ ∀ x ∈ cs, Digit x := by
      by_cases hi : ip = []
      · subst hi
        cases hs with
        | none => simp at hz
        | plus => exact ⟨43, [], rfl, by simp, by simp⟩
        | minus => exact ⟨45, [], rfl, by simp, by simp⟩
      · exact sign_digits_head hs ip hi hip
    obtain ⟨m1, m2⟩ := mainDispatch_number p hc2
    rw [hc1] at key ⊢
    rw [List.append_assoc, List.cons_append, lexRun_dispatch _ _ _ m1, m2]
    dsimp only
    rw [Stream.pre_nil, run_number _ _ _ _ _ hc3, List.singleton_append, List.cons_append]
    rw [lexRun_ok (st' := { fn := .float, cur := c :: cs ++ [46], tpos := p }) (toks := [])
      (by simp [lexStep, stepNumber, show isDigit 46 = false by decide]), Stream.pre_nil, key]
    simp [Nat.add_comm, Nat.add_left_comm]

/-! ### Names and keywords -/

theorem not_delim_iff {c : UInt8} (h : ¬ Delim c) : isEndWord c = false := by
  rw [← Bool.not_eq_true, delim_iff]; exact h

/-- Inside a name. -/
theorem run_name {e v} (h : NameBody e v) (cur : Bytes) (tpos p : Nat) (hex rest : Bytes) (hrest : rest ≠ []) :
    lexRun { fn := .literal, cur := cur, tpos := tpos, hex := hex } p (e ++ rest) =
      lexRun { fn := .literal, cur := cur ++ v, tpos := tpos } (p + e.length) rest := by
  induction h generalizing cur p hex with
  | nil =>
    have := sim_lexRun (k := 0) rest { fn := .literal, cur := cur, tpos := tpos } { fn := .literal, cur := cur, tpos := tpos, hex := hex } p
      ⟨rfl, by simp, by simp, by simp, by simp, by simp⟩
    simpa [shiftToks] using this
  | plain hc _ ih =>
    rename_i c e v _
    rw [List.cons_append, lexRun_ok (step_literal { fn := .literal, cur := cur, tpos := tpos, hex := hex } p c rfl (not_delim_iff hc)),
      Stream.pre_nil, ih]
    simp [Nat.add_comm, Nat.add_left_comm]
  | hex ha hb hbody ih =>
    rename_i a b x y e v
    obtain ⟨a1, a2, a3, a4⟩ := hexDigit_spec a x ha
    obtain ⟨b1, b2, b3, b4⟩ := hexDigit_spec b y hb
    rw [List.cons_append, List.cons_append, List.cons_append,
      lexRun_ok (st' := { fn := .literalHex, cur := cur, tpos := tpos, hex := [] }) (toks := [])
        (by simp [lexStep, stepLiteral, show isEndWord 35 = true by decide]),
      lexRun_ok (st' := { fn := .literalHex, cur := cur, tpos := tpos, hex := [a] }) (toks := [])
        (by simp [lexStep, stepLiteralHex, a1]),
      lexRun_ok (st' := { fn := .literalHex, cur := cur, tpos := tpos, hex := [a, b] }) (toks := [])
        (by simp [lexStep, stepLiteralHex, b1])]
    simp only [Stream.pre_nil]
    -- the next byte sends us back to the literal state
    have hval : hexVals [a, b] = 16 * x + y := by simp [hexVals, a2, b2]; omega
    have hback : ∀ w : Bytes, w ≠ [] → lexRun { fn := .literalHex, cur := cur, tpos := tpos, hex := [a, b] } (p + 1 + 1 + 1) w =
        lexRun { fn := .literal, cur := cur ++ [UInt8.ofNat (16 * x + y)], tpos := tpos, hex := [a, b] } (p + 1 + 1 + 1) w := by
      intro w hw
      obtain ⟨d, ds, rfl⟩ := List.exists_cons_of_ne_nil hw
      rw [lexRun, lexRun]
      congr 1
      simp [lexStep, stepLiteralHex, hval]
    rw [hback (e ++ rest) (by simp [hrest]), ih]
    simp [Nat.add_comm, Nat.add_left_comm]

theorem reads_name {e v rest} (h : NameBody e v) (hr : ∃ c r, rest = c :: r ∧ Delim c ∧ c ≠ 35) :
    Reads (47 :: e) (.lit v) rest := by
  intro p
  obtain ⟨d, r, rfl, hd1, hd2⟩ := hr
  rw [List.cons_append, lexRun_dispatch _ _ _ (by decide)]
  rw [show mainDispatch {} p 47 = ({ fn := .literal, cur := [], tpos := p }, []) from rfl]
  dsimp only
  rw [Stream.pre_nil, run_name h [] p (p + 1) [] (d :: r) (by simp), List.nil_append]
  rw [lexRun_hand (toks := [(p, .lit v)]) (by simp [lexStep, stepLiteral, (delim_iff d).mpr hd1, hd2])]
  simp [Nat.add_comm, Nat.add_left_comm]

theorem alpha_facts (c : UInt8) (h : isAlpha c = true) : isSpace c = false ∧ c ≠ 37 ∧ c ≠ 47 ∧ c ≠ 45 ∧ c ≠ 43 ∧
    isDigit c = false ∧ c ≠ 46 := by
  revert c; refine forall_byte ?_; decide +kernel

theorem reads_keyword {c : UInt8} {cs rest : Bytes} (hc : isAlpha c = true) (hcs : ∀ x ∈ cs, ¬ Delim x)
    (hr : ∃ c r, rest = c :: r ∧ Delim c ∧ c ≠ 35) : Reads (c :: cs) (keywordTok (c :: cs)) rest := by
  intro p
  obtain ⟨d, r, rfl, hd1, hd2⟩ := hr
  obtain ⟨a1, a2, a3, a4, a5, a6, a7⟩ := alpha_facts c hc
  rw [List.cons_append, lexRun_dispatch _ _ _ a1]
  rw [show mainDispatch {} p c = ({ fn := .keyword, cur := [c], tpos := p }, []) by
    simp [mainDispatch, a2, a3, a4, a5, a6, a7, hc]]
  dsimp only
  rw [Stream.pre_nil, lexRun_collect .keyword isEndWord step_keyword cs _ _ _ rfl (fun x hx => not_delim_iff (hcs x hx))]
  rw [lexRun_hand (toks := [(p, keywordTok (c :: cs))]) (by simp [lexStep, stepKeyword, (delim_iff d).mpr hd1])]
  simp [Nat.add_comm, Nat.add_left_comm]

/-! ### Strings -/

/-- The string state, with its leftover variables. -/
def inStr (cur : Bytes) (tpos paren : Nat) : LexSt := { fn := .string, cur := cur, tpos := tpos, paren := paren }

theorem run_inStr (cur : Bytes) (tpos paren : Nat) (hex oct : Bytes) (p : Nat) (w : Bytes) :
    lexRun { fn := .string, cur := cur, tpos := tpos, paren := paren, hex := hex, oct := oct } p w = lexRun (inStr cur tpos paren) p w := by
  have := sim_lexRun (k := 0) w (inStr cur tpos paren)
    { fn := .string, cur := cur, tpos := tpos, paren := paren, hex := hex, oct := oct } p
    ⟨rfl, by simp [inStr], by simp [inStr], by simp [inStr], by simp [inStr], by simp [inStr]⟩
  simpa [shiftToks] using this

theorem run_oct_end (cur : Bytes) (tpos paren : Nat) (oct : Bytes) (p : Nat) (w : Bytes) (hw : w ≠ []) (ho : oct ≠ [])
    (hv : octVal oct < 256) (h3 : oct.length = 3 ∨ ∀ c ∈ w.head?, ¬ (48 ≤ c.toNat ∧ c.toNat ≤ 55)) :
    lexRun { fn := .string1, cur := cur, tpos := tpos, paren := paren, oct := oct } p w =
      lexRun (inStr (cur ++ [UInt8.ofNat (octVal oct)]) tpos paren) p w := by
  rw [← run_inStr _ _ _ [] oct]
  obtain ⟨d, ds, rfl⟩ := List.exists_cons_of_ne_nil hw
  have hno : ¬ (isOct d = true ∧ oct.length < 3) := by
    rintro ⟨h1, h2⟩
    rcases h3 with h3 | h3
    · omega
    · exact h3 d (by simp) ((oct_iff d).mp h1)
  rw [lexRun, lexRun]
  congr 1
  simp only [lexStep, stepString1]
  rw [if_neg hno, if_pos ho, if_pos hv]

theorem octDigit_spec (a : Nat) (h : a < 8) : isOct (UInt8.ofNat (48 + a)) = true ∧ (UInt8.ofNat (48 + a)).toNat - 48 = a := by
  revert a; decide +kernel

theorem run_backslash (cur : Bytes) (tpos paren p : Nat) (w : Bytes) :
    lexRun (inStr cur tpos paren) p (92 :: w) =
      lexRun { fn := .string1, cur := cur, tpos := tpos, paren := paren, oct := [] } (p + 1) w := by
  rw [lexRun_ok (st' := { fn := .string1, cur := cur, tpos := tpos, paren := paren, oct := [] }) (toks := [])
    (by simp [lexStep, stepString, inStr, show isEndString 92 = true by decide])]
  simp

theorem run_octdigit (cur : Bytes) (tpos paren : Nat) (oct : Bytes) (p : Nat) (a : Nat) (ha : a < 8) (w : Bytes) (hl : oct.length < 3) :
    lexRun { fn := .string1, cur := cur, tpos := tpos, paren := paren, oct := oct } p (UInt8.ofNat (48 + a) :: w) =
      lexRun { fn := .string1, cur := cur, tpos := tpos, paren := paren, oct := oct ++ [UInt8.ofNat (48 + a)] } (p + 1) w := by
  rw [lexRun_ok (st' := { fn := .string1, cur := cur, tpos := tpos, paren := paren, oct := oct ++ [UInt8.ofNat (48 + a)] }) (toks := [])
    (by simp only [lexStep, stepString1]; rw [if_pos ⟨(octDigit_spec a ha).1, hl⟩])]
  simp

theorem esc_facts (x c : UInt8) (h : (x, c) ∈ ([(110, 10), (114, 13), (116, 9), (98, 8), (102, 12), (40, 40), (41, 41), (92, 92)] : List (UInt8 × UInt8))) :
    isOct x = false ∧ escString x = some c := by
  have : ∀ q ∈ ([(110, 10), (114, 13), (116, 9), (98, 8), (102, 12), (40, 40), (41, 41), (92, 92)] : List (UInt8 × UInt8)),
      isOct q.1 = false ∧ escString q.1 = some q.2 := by decide +kernel
  exact this _ h

theorem endString_iff (c : UInt8) : isEndString c = true ↔ (c = 40 ∨ c = 41 ∨ c = 92) := by
  revert c; refine forall_byte ?_; decide +kernel

/-- Inside a literal string. -/
theorem run_str {e v} (h : StrBody e v) (cur : Bytes) (tpos paren p : Nat) (rest : Bytes)
    (hr : ∃ r, rest = 41 :: r) :
    lexRun (inStr cur tpos (paren + 1)) p (e ++ rest) = lexRun (inStr (cur ++ v) tpos (paren + 1)) (p + e.length) rest := by
  induction h generalizing cur paren p rest with
  | nil => simp
  | plain h1 h2 h3 _ ih =>
    rename_i c e v _
    have : isEndString c = false := by rw [← Bool.not_eq_true, endString_iff]; simp [h1, h2, h3]
    rw [List.cons_append, lexRun_ok (step_string (inStr cur tpos (paren + 1)) p c rfl this), Stream.pre_nil]
    have := ih (cur ++ [c]) paren (p + 1) rest hr
    simp only [inStr] at this ⊢
    rw [this]
    simp [Nat.add_comm, Nat.add_left_comm]
  | esc hx _ ih =>
    rename_i x c e v _
    obtain ⟨e1, e2⟩ := esc_facts x c hx
    rw [List.cons_append, List.cons_append, run_backslash,
      lexRun_ok (st' := { fn := .string, cur := cur ++ [c], tpos := tpos, paren := paren + 1, oct := [] }) (toks := [])
        (by simp [lexStep, stepString1, e1, e2]), Stream.pre_nil, run_inStr, ih _ _ _ _ hr]
    simp [Nat.add_comm, Nat.add_left_comm]
  | oct ha hb hd _ ih =>
    rename_i a b d e v _
    obtain ⟨r, rfl⟩ := hr
    have hv : octVal [UInt8.ofNat (48 + a), UInt8.ofNat (48 + b), UInt8.ofNat (48 + d)] = 64 * a + 8 * b + d := by
      simp only [octVal, List.foldl_cons, List.foldl_nil, (octDigit_spec a (by omega)).2, (octDigit_spec b hb).2, (octDigit_spec d hd).2]
      omega
    simp only [List.cons_append]
    rw [run_backslash, run_octdigit _ _ _ _ _ a (by omega) _ (by simp), run_octdigit _ _ _ _ _ b hb _ (by simp),
      run_octdigit _ _ _ _ _ d hd _ (by simp)]
    simp only [List.nil_append, List.cons_append]
    rw [run_oct_end _ _ _ _ _ _ (by simp) (by simp) (by rw [hv]; omega) (Or.inl rfl), hv, ih _ _ _ _ ⟨r, rfl⟩]
    simp [Nat.add_comm, Nat.add_left_comm]
  | oct1 ha hh _ ih =>
    rename_i a e v _
    obtain ⟨r, rfl⟩ := hr
    have hv : octVal [UInt8.ofNat (48 + a)] = a := by
      simp only [octVal, List.foldl_cons, List.foldl_nil, (octDigit_spec a ha).2]; omega
    simp only [List.cons_append]
    rw [run_backslash, run_octdigit _ _ _ _ _ a ha _ (by simp)]
    simp only [List.nil_append]
    rw [run_oct_end _ _ _ _ _ _ (by simp) (by simp) (by rw [hv]; omega)
      (Or.inr (by cases e with
        | nil => simp
        | cons x xs => simpa using hh)), hv, ih _ _ _ _ ⟨r, rfl⟩]
    simp [Nat.add_comm, Nat.add_left_comm]
  | oct2 ha hb hh _ ih =>
    rename_i a b e v _
    obtain ⟨r, rfl⟩ := hr
    have hv : octVal [UInt8.ofNat (48 + a), UInt8.ofNat (48 + b)] = 8 * a + b := by
      simp only [octVal, List.foldl_cons, List.foldl_nil, (octDigit_spec a ha).2, (octDigit_spec b hb).2]; omega
    simp only [List.cons_append]
    rw [run_backslash, run_octdigit _ _ _ _ _ a ha _ (by simp), run_octdigit _ _ _ _ _ b hb _ (by simp)]
    simp only [List.nil_append, List.cons_append]
    rw [run_oct_end _ _ _ _ _ _ (by simp) (by simp) (by rw [hv]; omega)
      (Or.inr (by cases e with
        | nil => simp
        | cons x xs => simpa using hh)), hv, ih _ _ _ _ ⟨r, rfl⟩]
    simp [Nat.add_comm, Nat.add_left_comm]
  | cont hc _ ih =>
    rename_i c e v _
    have hf : isOct c = false ∧ escString c = none := by rcases hc with h | h <;> subst h <;> decide +kernel
    rw [List.cons_append, List.cons_append, run_backslash,
      lexRun_ok (st' := { fn := .string, cur := cur, tpos := tpos, paren := paren + 1, oct := [] }) (toks := [])
        (by simp [lexStep, stepString1, hf]), Stream.pre_nil, run_inStr, ih _ _ _ _ hr]
    simp [Nat.add_comm, Nat.add_left_comm]
  | nest _ _ ih1 ih2 =>
    rename_i e1 v1 e2 v2 _ _
    rw [List.cons_append, List.cons_append, List.append_assoc, List.cons_append]
    rw [lexRun_ok (st' := { inStr (cur ++ [40]) tpos (paren + 1 + 1) with fn := .string }) (toks := [])
        (by simp [lexStep, stepString, inStr, show isEndString 40 = true by decide]), Stream.pre_nil]
    have h1 := ih1 (cur ++ [40]) (paren + 1) (p + 1) (41 :: (e2 ++ rest)) ⟨_, rfl⟩
    rw [show ({ inStr (cur ++ [40]) tpos (paren + 1 + 1) with fn := .string } : LexSt) = inStr (cur ++ [40]) tpos (paren + 1 + 1) from rfl, h1]
    rw [lexRun_ok (st' := inStr (cur ++ [40] ++ v1 ++ [41]) tpos (paren + 1)) (toks := [])
        (by simp [lexStep, stepString, inStr, show isEndString 41 = true by decide]), Stream.pre_nil, ih2 _ _ _ _ hr]
    simp [Nat.add_comm, Nat.add_left_comm]

theorem reads_str {e v} (h : StrBody e v) (rest : Bytes) : Reads (40 :: e ++ [41]) (.str v) rest := by
  intro p
  rw [List.cons_append, List.cons_append, lexRun_dispatch _ _ _ (by decide)]
  rw [show mainDispatch {} p 40 = (inStr [] p 1, []) from rfl]
  dsimp only
  rw [Stream.pre_nil, List.append_assoc, run_str h [] p 0 (p + 1) ([41] ++ rest) ⟨_, rfl⟩, List.nil_append, List.singleton_append]
  rw [lexRun_ok (st' := { fn := .main, cur := v, tpos := p }) (toks := [(p, .str v)])
    (by simp [lexStep, stepString, inStr, show isEndString 41 = true by decide]), lexRun_main _ rfl]
  simp [Nat.add_comm, Nat.add_left_comm]

theorem hexbody_chars {e v} (h : HexBody e v) : ∀ c ∈ e, isEndHexString c = false := by
  induction h with
  | nil => simp
  | white hc _ ih =>
    intro c hm
    rcases List.mem_cons.mp hm with rfl | hm
    · simp [isEndHexString, (white_iff c).mpr hc]
    · exact ih c hm
  | pair ha hb hw _ ih =>
    intro c hm
    have a1 := (hexDigit_spec _ _ ha).1
    have b1 := (hexDigit_spec _ _ hb).1
    simp only [List.cons_append, List.mem_cons, List.mem_append] at hm
    rcases hm with rfl | hm | rfl | hm
    · simp [isEndHexString, a1]
    · simp [isEndHexString, (white_iff c).mpr (hw c hm)]
    · simp [isEndHexString, b1]
    · exact ih c hm

theorem hexbody_value {e v} (h : HexBody e v) : hexPairs (e.filter (fun c => !isSpace c)) = v := by
  induction h with
  | nil => rfl
  | white hc _ ih => rw [List.filter_cons_of_neg (by simp [(white_iff _).mpr hc]), ih]
  | pair ha hb hw _ ih =>
    rename_i a b x y e v w _
    obtain ⟨a1, a2, a3, a4⟩ := hexDigit_spec _ _ ha
    obtain ⟨b1, b2, b3, b4⟩ := hexDigit_spec _ _ hb
    have hwf : w.filter (fun c => !isSpace c) = [] := by
      rw [List.filter_eq_nil_iff]; intro c hc; simp [(white_iff c).mpr (hw c hc)]
    rw [List.cons_append, List.filter_cons_of_pos (by simp [a4]), List.filter_append, hwf, List.nil_append,
      List.filter_cons_of_pos (by simp [b4])]
    simp only [hexPairs]
    rw [ih, a2, b2, Nat.mul_comm]

/-- A hexadecimal string: the closing `>` is looked at twice. -/
theorem reads_hex {e v} (h : HexBody e v) (rest : Bytes) (hr : ∀ c ∈ rest.head?, c ≠ 62) :
    Reads (60 :: e ++ [62]) (.str v) rest := by
  intro p
  have hend : ∀ q tpos, lexRun {} q (62 :: rest) = lexRun {} (q + 1) rest ∧
      lexRun { fn := .hexstring, cur := e, tpos := tpos } q (62 :: rest) = Stream.pre [(tpos, .str v)] (lexRun {} q (62 :: rest)) := by
    intro q tpos
    constructor
    · rw [lexRun_dispatch _ _ _ (by decide), show mainDispatch {} q 62 = ({ fn := .wclose, cur := [], tpos := q }, []) from rfl]
      dsimp only
      rw [Stream.pre_nil]
      cases rest with
      | nil => rfl
      | cons d ds =>
        have hd : d ≠ 62 := hr d (by simp)
        rw [lexRun_hand (toks := []) (by simp [lexStep, stepWclose, hd])]
        rfl
    · refine lexRun_hand ?_ _
      have := hexbody_value h
      simp [lexStep, stepHexstring, hexTok, this, show isEndHexString 62 = true by decide]
  -- from `<` to the hexstring state
  have hopen : lexRun {} p (60 :: (e ++ 62 :: rest)) = lexRun { fn := .hexstring, cur := e, tpos := p } (p + 1 + e.length) (62 :: rest) := by
    rw [lexRun_dispatch _ _ _ (by decide), show mainDispatch {} p 60 = ({ fn := .wopen, cur := [], tpos := p }, []) from rfl]
    dsimp only
    rw [Stream.pre_nil]
    have hw : lexRun { fn := .wopen, cur := [], tpos := p } (p + 1) (e ++ 62 :: rest) =
        lexRun { fn := .hexstring, cur := [], tpos := p } (p + 1) (e ++ 62 :: rest) := by
      obtain ⟨d, ds, hd, hd60⟩ : ∃ d ds, e ++ 62 :: rest = d :: ds ∧ d ≠ 60 := by
        cases e with
        | nil => exact ⟨62, rest, rfl, by decide⟩
        | cons x xs =>
          refine ⟨x, xs ++ 62 :: rest, rfl, ?_⟩
          have := hexbody_chars h x (by simp)
          rintro rfl; exact absurd this (by decide)
      rw [hd, lexRun, lexRun]
      congr 1
      simp [lexStep, stepWopen, hd60]
    rw [hw, lexRun_collect .hexstring isEndHexString step_hexstring e _ _ _ rfl (hexbody_chars h)]
    rfl
  rw [List.cons_append, List.cons_append, List.append_assoc, List.singleton_append, hopen, (hend _ _).2, (hend _ p).1]
  simp [Nat.add_comm, Nat.add_left_comm]

theorem reads_spells {e t k} (h : Spells e t k) (rest : Bytes) (hr : k.ok rest) : Reads e t rest := by
  cases h with
  | int h1 h2 h3 => exact reads_int h1 h2 h3 hr
  | real h1 h2 h3 h4 => exact reads_real h1 h2 h3 h4 hr
  | str h => exact reads_str h rest
  | hexStr h => exact reads_hex h rest hr
  | name h => exact reads_name h hr
  | true => exact reads_keyword (c := 116) (cs := [114, 117, 101]) (by decide) (by decide) hr
  | false => exact reads_keyword (c := 102) (cs := [97, 108, 115, 101]) (by decide) (by decide) hr
  | keyword h1 h2 h3 h4 =>
    have := reads_keyword ((alpha_iff _).mpr h1) h2 hr
    rwa [keywordTok, if_neg h3, if_neg h4] at this
  | bracket hc =>
    rename_i c
    intro p
    have : isSpace c = false ∧ mainDispatch {} p c = ({ tpos := p }, [(p, .kw [c])]) := by
      simp only [List.mem_cons, List.not_mem_nil, or_false] at hc
      rcases hc with rfl | rfl | rfl | rfl <;> exact ⟨by decide, rfl⟩
    rw [List.singleton_append, lexRun_dispatch _ _ _ this.1, this.2]
    dsimp only
    rw [lexRun_main _ rfl]; rfl
  | dictOpen =>
    intro p
    rw [List.cons_append, List.cons_append, lexRun_dispatch _ _ _ (by decide),
      show mainDispatch {} p 60 = ({ fn := .wopen, cur := [], tpos := p }, []) from rfl]
    dsimp only
    rw [Stream.pre_nil, lexRun_ok (st' := { fn := .main, cur := [], tpos := p }) (toks := [(p, .kw [60, 60])]) (by simp [lexStep, stepWopen]),
      lexRun_main _ rfl]
    rfl
  | dictClose =>
    intro p
    rw [List.cons_append, List.cons_append, lexRun_dispatch _ _ _ (by decide),
      show mainDispatch {} p 62 = ({ fn := .wclose, cur := [], tpos := p }, []) from rfl]
    dsimp only
    rw [Stream.pre_nil, lexRun_ok (st' := { fn := .main, cur := [], tpos := p }) (toks := [(p, .kw [62, 62])]) (by simp [lexStep, stepWclose]),
      lexRun_main _ rfl]
    rfl

theorem run_white {c : UInt8} (h : White c) (p : Nat) (w : Bytes) : lexRun {} p (c :: w) = lexRun {} (p + 1) w := by
  have := lexRun_space [c] {} p w rfl (by simpa using (white_iff c).mpr h)
  simpa using this

theorem run_comment {body : Bytes} {c : UInt8} (h : ∀ x ∈ body, x ≠ 10 ∧ x ≠ 13) (hc : c = 10 ∨ c = 13) (p : Nat) (w : Bytes) :
    lexRun {} p (37 :: body ++ c :: w) = lexRun {} (p + body.length + 2) w := by
  rw [List.cons_append, lexRun_dispatch _ _ _ (by decide), show mainDispatch {} p 37 = ({ fn := .comment, cur := [37], tpos := p }, []) from rfl]
  dsimp only
  rw [Stream.pre_nil, lexRun_collect .comment isEol step_comment body _ _ _ rfl
    (fun x hx => by rw [← Bool.not_eq_true, eol_iff]; have := h x hx; simp [this])]
  rw [lexRun_hand (toks := []) (by simp [lexStep, stepComment, (eol_iff c).mpr hc]), Stream.pre_nil,
    run_white (by rcases hc with rfl | rfl <;> decide)]
  congr 1; omega

/-- A text is read as its tokens, and what follows is read afresh. -/
theorem run_text {p ts a b} (h : Text p ts a b) : lexRun {} p (a ++ b) = Stream.pre ts (lexRun {} (p + a.length) b) := by
  induction h with
  | nil => simp
  | white hc _ ih =>
    rw [List.cons_append, run_white hc, ih]
    simp [Nat.add_comm, Nat.add_left_comm]
  | comment h1 h2 _ ih =>
    rename_i p ts body c a b _
    rw [show 37 :: body ++ c :: a ++ b = 37 :: body ++ c :: (a ++ b) by simp, run_comment h1 h2, ih]
    congr 2; simp; omega
  | tok hs hk _ ih =>
    rw [List.append_assoc, reads_spells hs _ hk, ih]
    simp [Stream.pre, Nat.add_assoc]

end Pdf

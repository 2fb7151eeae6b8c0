import Verif.Proofs.TokenPos
/-! C09-C17: the tokenizer. -/

namespace Pdf
open Spec (White Delim Digit StrBody HexBody NameBody Spells Text Sign TokAt Ends)

/-- C09. The results of any number of `nexttoken` calls after `seek(pos)` (tokens, positions, exceptions) are
the same for every two buffer sizes and every two files that agree from `pos` on. -/
theorem tokens_independent_of_buffer (b b' : Nat) (hb : 0 < b) (hb' : 0 < b') (data data' : Bytes) (pos n : Nat)
    (hd : data.drop pos = data'.drop pos) :
    (PSt.seek data pos).outcomes b n = (PSt.seek data' pos).outcomes b' n := by
  rw [outcomes_eq hb, outcomes_eq hb', hd]

/-- A token that straddles the boundary of a 4 byte buffer. -/
example : (PSt.seek [40, 97, 98, 99, 100, 101, 41, 32, 49, 50, 32] 0).outcomes 4 3 =
    [.ok (0, .str [97, 98, 99, 100, 101]), .ok (8, .int 12), .error .psEOF] := by decide +kernel

/-- C09, position independence: the tokens from `pos` on are those of the rest of the file read on its own, with
positions shifted by `pos`. -/
theorem tokens_from_seek_point (b : Nat) (hb : 0 < b) (data : Bytes) (pos : Nat) :
    tokenize b data pos =
      ((tokenize b (data.drop pos) 0).1.map (fun x => (x.1 + pos, x.2)), (tokenize b (data.drop pos) 0).2) := by
  rw [tokenize_eq hb, tokenize_eq hb, List.drop_zero]
  have := lexRun_shift 0 pos (data.drop pos)
  rw [Nat.zero_add] at this
  rw [this]; rfl

/-- C10. Reading always ends: there are at most as many tokens as bytes left, and then every further call raises
the same exception, end-of-file or (after an octal escape above 255) `struct.error`. In particular no call runs
out of the model's iteration bound, which would be the outcome `.error .recursion`. -/
theorem tokenizer_terminates (b : Nat) (hb : 0 < b) (data : Bytes) (pos : Nat) :
    ∃ (ts : List (Nat × Tok)) (e : PyErr), ts.length ≤ data.length - pos ∧ (e = .psEOF ∨ e = .structError) ∧
      ∀ n, (PSt.seek data pos).outcomes b n = (ts.map Except.ok ++ List.replicate n (Except.error e)).take n := by
  refine ⟨(lexRun {} pos (data.drop pos)).1, (lexRun {} pos (data.drop pos)).2, ?_, lexRun_error _ _ _, fun n => outcomes_eq hb data pos n⟩
  have := lexRun_count (data.drop pos) {} pos
  rw [List.length_drop] at this
  have h0 : ({} : LexSt).pend = 0 := rfl
  omega

/-- C10, one call at a time: from every state the calls can reach, `nexttoken` never exceeds the model's bound on
the number of parse function calls. -/
theorem nexttoken_never_stuck (b : Nat) (hb : 0 < b) (data : Bytes) (pos n : Nat) :
    Except.error PyErr.recursion ∉ (PSt.seek data pos).outcomes b n := by
  obtain ⟨ts, e, _, he, h⟩ := tokenizer_terminates b hb data pos
  rw [h]
  intro hm
  have := List.mem_of_mem_take hm
  simp only [List.mem_append, List.mem_map, List.mem_replicate] at this
  rcases this with ⟨x, _, hx⟩ | ⟨_, hx⟩
  · cases hx
  · cases hx; rcases he with he | he <;> cases he

/-- One state of the parser can need several parse calls without consuming (`>` handed from state to state). -/
example : (PSt.seek [60, 52, 49, 62, 47] 0).outcomes 1 3 = [.ok (0, .str [65]), .error .psEOF, .error .psEOF] := by
  decide +kernel

/-- C11. Reported positions strictly increase, lie in the file (at or after the seek point), and a token starts
with its first byte there: a keyword is spelled out at its position, a number starts with a sign, digit or dot, a
string with `(` or `<`, a name with `/`. -/
theorem token_positions (b : Nat) (hb : 0 < b) (data : Bytes) (pos : Nat) :
    (tokenize b data pos).1.Pairwise (fun x y => x.1 < y.1) ∧
    ∀ x ∈ (tokenize b data pos).1, pos ≤ x.1 ∧ x.1 < data.length ∧ TokAt data x.1 x.2 := by
  rw [tokenize_eq hb]
  obtain ⟨h1, h2⟩ := pos_lexRun (data := data) (data.drop pos) {} pos rfl ⟨by simp, by simp [StartAt]⟩
  refine ⟨h1, fun x hx => ?_⟩
  obtain ⟨a1, a2, a3⟩ := h2 x hx
  refine ⟨a1, ?_, a3⟩
  have hl : ({} : LexSt).low pos = pos := rfl
  rw [hl] at a1
  rw [List.length_drop] at a2
  omega

example : tokenize 4096 [32, 47, 65, 32, 91, 49, 93] 0 = ([(1, .lit [65]), (4, .kw [91]), (5, .int 1), (6, .kw [93])], some .psEOF) := by
  decide +kernel

/-- The whole lexical syntax at once (C12-C17): a file that consists from the seek point on of spelled tokens, white
space and comments is read as exactly those tokens, at exactly their offsets. -/
theorem tokenize_text (b : Nat) (hb : 0 < b) (data : Bytes) (pos : Nat) (ts : List (Nat × Tok))
    (h : Text pos ts (data.drop pos) []) : tokenize b data pos = (ts, some .psEOF) := by
  rw [tokenize_eq hb]
  have := run_text h
  rw [List.append_nil] at this
  rw [this]
  simp [Stream.pre, lexRun]

/-- More generally only the beginning needs to be well-formed: the tokens of `a` come first, and the arbitrary
bytes `rest` after it are read as if they stood alone. -/
theorem tokenize_text_prefix (b : Nat) (hb : 0 < b) (a rest : Bytes) (ts : List (Nat × Tok)) (h : Text 0 ts a rest) :
    tokenize b (a ++ rest) 0 =
      (ts ++ (tokenize b rest 0).1.map (fun x => (x.1 + a.length, x.2)), (tokenize b rest 0).2) := by
  rw [tokenize_eq hb, tokenize_eq hb, List.drop_zero, List.drop_zero, run_text h]
  have := lexRun_shift 0 a.length rest
  rw [this]
  rfl

/-- `/A#20 (x(\051)) %c⏎ <4 1>12 `: the text specification is inhabited by a file with every feature. -/
example : Text 0 [(0, .lit [65, 32]), (6, .str [120, 40, 41, 41]), (19, .str [65]), (24, .int 12)]
    [47, 65, 35, 50, 48, 32, 40, 120, 40, 92, 48, 53, 49, 41, 41, 37, 99, 10, 32, 60, 52, 32, 49, 62, 49, 50, 32] [] := by
  refine .tok (e := [47, 65, 35, 50, 48]) (.name (.plain (by decide) (.hex (x := 2) (y := 0) rfl rfl .nil))) ⟨32, _, rfl, by decide, by decide⟩ ?_
  refine .white (by decide) ?_
  refine .tok (e := 40 :: [120, 40, 92, 48, 53, 49, 41] ++ [41])
    (.str (.plain (by decide) (by decide) (by decide)
      (.nest (e₁ := [92, 48, 53, 49]) (v₁ := [41]) (.oct (a := 0) (b := 5) (d := 1) (by decide) (by decide) (by decide) .nil) .nil))) trivial ?_
  refine .comment (body := [99]) (c := 10) (by decide) (by decide) ?_
  refine .white (by decide) ?_
  refine .tok (e := 60 :: [52, 32, 49] ++ [62]) (.hexStr (.pair (w := [32]) (x := 4) (y := 1) rfl rfl (by decide) .nil)) (by intro c hc; simp at hc; subst hc; decide) ?_
  refine .tok (e := [] ++ [49, 50]) (a := [32]) (.int .none (by simp) (by decide)) ⟨32, [], rfl, by decide, by decide⟩ ?_
  exact .white (by decide) .nil

/-! ### Corollaries, one per kind of token -/

theorem tokenize_spelled (b : Nat) (hb : 0 < b) {e t k} (h : Spells e t k) (rest : Bytes) (hr : k.ok rest) :
    tokenize b (e ++ rest) 0 =
      ((0, t) :: (tokenize b rest 0).1.map (fun x => (x.1 + e.length, x.2)), (tokenize b rest 0).2) := by
  have := tokenize_text_prefix b hb (e ++ []) rest _ (Text.tok (p := 0) h (by simpa using hr) .nil)
  simpa using this

/-- C12. A literal string in any of its spellings (escapes, octal escapes, balanced parentheses, continued lines),
whatever follows it. -/
theorem string_roundtrip (b : Nat) (hb : 0 < b) (e v rest : Bytes) (h : StrBody e v) :
    tokenize b (40 :: e ++ 41 :: rest) 0 =
      ((0, .str v) :: (tokenize b rest 0).1.map (fun x => (x.1 + (e.length + 2), x.2)), (tokenize b rest 0).2) := by
  have := tokenize_spelled b hb (Spells.str h) rest trivial
  simpa [List.append_assoc, Nat.add_assoc] using this

/-- Every byte string has such a spelling, for instance with every byte as a three digit octal escape. -/
theorem string_has_spelling (v : Bytes) : ∃ e, StrBody e v := by
  induction v with
  | nil => exact ⟨[], .nil⟩
  | cons c cs ih =>
    obtain ⟨e, he⟩ := ih
    have hlt := UInt8.toNat_lt c
    have : c = UInt8.ofNat (64 * (c.toNat / 64) + 8 * (c.toNat % 64 / 8) + c.toNat % 8) := by
      rw [show 64 * (c.toNat / 64) + 8 * (c.toNat % 64 / 8) + c.toNat % 8 = c.toNat by omega, UInt8.ofNat_toNat]
    rw [this]
    exact ⟨_, .oct (by omega) (by omega) (by omega) he⟩

/-- Not covered, because the code gets it wrong: a backslash before any other character must be ignored and the
character kept, but the tokenizer drops the character as well (`(a\qb)` is read as `ab`). -/
theorem unknown_escape_drops_byte : tokenize 4096 [40, 97, 92, 113, 98, 41] 0 = ([(0, .str [97, 98])], some .psEOF) := by
  decide +kernel

/-- Likewise an octal escape above `\377` makes the tokenizer fail with `struct.error`. -/
theorem octal_overflow_fails : tokenize 4096 [40, 92, 52, 48, 48, 41] 0 = ([], some .structError) := by decide +kernel

/-- C13, for an even number of digits: hexadecimal strings with white space anywhere. (`_partial`: see
`hex_odd_digit_wrong`.) -/
theorem hexstring_roundtrip_partial (b : Nat) (hb : 0 < b) (e v rest : Bytes) (h : HexBody e v)
    (hr : ∀ c ∈ rest.head?, c ≠ 62) :
    tokenize b (60 :: e ++ 62 :: rest) 0 =
      ((0, .str v) :: (tokenize b rest 0).1.map (fun x => (x.1 + (e.length + 2), x.2)), (tokenize b rest 0).2) := by
  have := tokenize_spelled b hb (Spells.hexStr h) rest hr
  simpa [List.append_assoc, Nat.add_assoc] using this

/-- C13 is false for an odd number of digits: the standard says `<4>` is the byte `40` (hex), the code reads `04`. -/
theorem hex_odd_digit_wrong : tokenize 4096 [60, 52, 62, 32] 0 = ([(0, .str [4])], some .psEOF) := by decide +kernel

/-- C14. Names with `#xx` escapes. -/
theorem name_roundtrip (b : Nat) (hb : 0 < b) (e v : Bytes) (c : UInt8) (rest : Bytes) (h : NameBody e v)
    (hc : Delim c) (hc2 : c ≠ 35) :
    tokenize b (47 :: e ++ c :: rest) 0 =
      ((0, .lit v) :: (tokenize b (c :: rest) 0).1.map (fun x => (x.1 + (e.length + 1), x.2)), (tokenize b (c :: rest) 0).2) := by
  have := tokenize_spelled b hb (Spells.name h) (c :: rest) ⟨c, rest, rfl, hc, hc2⟩
  simpa using this

def hexChar (n : Nat) : UInt8 := UInt8.ofNat (if n < 10 then 48 + n else 87 + n)

theorem hexChar_spec (n : Nat) (h : n < 16) : Spec.hexDigit (hexChar n) = some n := by
  revert n; decide +kernel

/-- Every byte sequence is the name of some spelling. -/
theorem name_has_spelling (v : Bytes) : ∃ e, NameBody e v := by
  induction v with
  | nil => exact ⟨[], .nil⟩
  | cons c cs ih =>
    obtain ⟨e, he⟩ := ih
    have hlt := UInt8.toNat_lt c
    have : c = UInt8.ofNat (16 * (c.toNat / 16) + c.toNat % 16) := by
      rw [show 16 * (c.toNat / 16) + c.toNat % 16 = c.toNat by omega, UInt8.ofNat_toNat]
    rw [this]
    exact ⟨_, .hex (hexChar_spec _ (by omega)) (hexChar_spec _ (by omega)) he⟩

/-- C15. Integers: any numeral with optional sign and leading zeros, before any byte that is neither a digit nor a
dot. -/
theorem integer_numeral (b : Nat) (hb : 0 < b) (s ds : Bytes) (f : Nat → Int) (c : UInt8) (rest : Bytes) (hs : Sign s f)
    (hne : ds ≠ []) (hd : ∀ c ∈ ds, Digit c) (hc : ¬ Digit c) (hc2 : c ≠ 46) :
    tokenize b (s ++ ds ++ c :: rest) 0 =
      ((0, .int (f (Spec.decimal ds))) :: (tokenize b (c :: rest) 0).1.map (fun x => (x.1 + (s ++ ds).length, x.2)),
        (tokenize b (c :: rest) 0).2) :=
  tokenize_spelled b hb (Spells.int hs hne hd) (c :: rest) ⟨c, rest, rfl, hc, hc2⟩

/-- The usual decimal numeral of a natural number, and of an integer. -/
def natNumeral (n : Nat) : Bytes :=
  if n < 10 then [UInt8.ofNat (48 + n)] else natNumeral (n / 10) ++ [UInt8.ofNat (48 + n % 10)]
termination_by n

def intNumeral (n : Int) : Bytes := if n < 0 then 45 :: natNumeral n.natAbs else natNumeral n.natAbs

theorem decimal_append (a b : Bytes) : Spec.decimal (a ++ b) = Spec.decimal a * 10 ^ b.length + Spec.decimal b := by
  induction a with
  | nil => simp [Spec.decimal]
  | cons c cs ih =>
    rw [List.cons_append, Spec.decimal, Spec.decimal, ih, List.length_append, Nat.pow_add, Nat.add_mul, Nat.mul_assoc]
    omega

theorem digitChar (n : Nat) (h : n < 10) : (UInt8.ofNat (48 + n)).toNat - 48 = n ∧ Digit (UInt8.ofNat (48 + n)) := by
  revert n; decide +kernel

theorem natNumeral_spec (n : Nat) : natNumeral n ≠ [] ∧ (∀ c ∈ natNumeral n, Digit c) ∧ Spec.decimal (natNumeral n) = n := by
  induction n using Nat.strongRecOn with
  | ind n ih =>
    rw [natNumeral]
    split
    · rename_i h
      obtain ⟨d1, d2⟩ := digitChar n h
      exact ⟨by simp, fun c hc => by rw [List.mem_singleton] at hc; subst hc; exact d2,
        by simp only [Spec.decimal, List.length_nil, d1]; omega⟩
    · rename_i h
      obtain ⟨h1, h2, h3⟩ := ih (n / 10) (by omega)
      obtain ⟨d1, d2⟩ := digitChar (n % 10) (by omega)
      refine ⟨by simp, ?_, ?_⟩
      · intro c hc
        rw [List.mem_append] at hc
        rcases hc with hc | hc
        · exact h2 c hc
        · rw [List.mem_singleton] at hc; subst hc; exact d2
      · rw [decimal_append, h3]
        simp only [Spec.decimal, List.length_cons, List.length_nil, d1]; omega

/-- C15, for every integer. -/
theorem integer_roundtrip (b : Nat) (hb : 0 < b) (n : Int) (c : UInt8) (rest : Bytes) (hc : ¬ Digit c) (hc2 : c ≠ 46) :
    tokenize b (intNumeral n ++ c :: rest) 0 =
      ((0, .int n) :: (tokenize b (c :: rest) 0).1.map (fun x => (x.1 + (intNumeral n).length, x.2)),
        (tokenize b (c :: rest) 0).2) := by
  obtain ⟨h1, h2, h3⟩ := natNumeral_spec n.natAbs
  unfold intNumeral
  split
  · rename_i hn
    have := integer_numeral b hb [45] (natNumeral n.natAbs) _ c rest .minus h1 h2 hc hc2
    rw [h3, show -((n.natAbs : Nat) : Int) = n by omega] at this
    exact this
  · rename_i hn
    have := integer_numeral b hb [] (natNumeral n.natAbs) _ c rest .none h1 h2 hc hc2
    rw [h3, show ((n.natAbs : Nat) : Int) = n by omega] at this
    exact this

example : intNumeral (-1207) = [45, 49, 50, 48, 55] := by decide +kernel

/-- A limitation: a number (name, keyword) that ends with the file is not reported. -/
theorem last_token_needs_delimiter : tokenize 4096 [49, 50] 0 = ([], some .psEOF) := by decide +kernel

/-- The values of the tokens of a file. -/
def tokenValues (b : Nat) (data : Bytes) : List Tok := (tokenize b data 0).1.map Prod.snd

theorem tokenValues_prefix (b : Nat) (hb : 0 < b) (a rest : Bytes) (ts : List (Nat × Tok)) (h : Text 0 ts a rest) :
    tokenValues b (a ++ rest) = ts.map Prod.snd ++ tokenValues b rest := by
  unfold tokenValues
  rw [tokenize_text_prefix b hb a rest ts h]
  simp [List.map_map, Function.comp_def]

/-- A gap between tokens: white space and comments. -/
def Gap (g : Bytes) : Prop := ∀ p rest, Text p [] g rest

/-- C16 and C17. Inserting a gap (any white space and comments) between a well-formed beginning `a` and arbitrary
further bytes `rest` changes no token value and not the way reading ends. The beginning must be complete both with
and without the gap, that is, its last token must not run into what follows. -/
theorem gap_transparent (b : Nat) (hb : 0 < b) (a g rest : Bytes) (ts ts' : List (Nat × Tok)) (hg : Gap g)
    (h : Text 0 ts a rest) (h' : Text 0 ts' a (g ++ rest)) (hts : ts'.map Prod.snd = ts.map Prod.snd) :
    tokenValues b (a ++ (g ++ rest)) = tokenValues b (a ++ rest) ∧
    (tokenize b (a ++ (g ++ rest)) 0).2 = (tokenize b (a ++ rest) 0).2 := by
  rw [tokenValues_prefix b hb a _ ts' h', tokenValues_prefix b hb a _ ts h, tokenValues_prefix b hb g rest [] (hg 0 rest), hts,
    tokenize_text_prefix b hb a _ ts' h', tokenize_text_prefix b hb a _ ts h, tokenize_text_prefix b hb g rest [] (hg 0 rest)]
  simp

theorem gap_white {c : UInt8} {g : Bytes} (hc : White c) (hg : Gap g) : Gap (c :: g) := fun _ _ => .white hc (hg _ _)
theorem gap_comment {body : Bytes} {c : UInt8} {g : Bytes} (hb : ∀ x ∈ body, x ≠ 10 ∧ x ≠ 13) (hc : c = 10 ∨ c = 13) (hg : Gap g) :
    Gap (37 :: body ++ c :: g) := fun _ _ => .comment hb hc (hg _ _)
theorem gap_nil : Gap [] := fun _ _ => .nil

theorem spells_ne_nil {e t k} (h : Spells e t k) : e ≠ [] := by
  cases h with
  | int _ h _ => simp [h]
  | _ => simp

theorem text_nil {p ts a b} (h : Text p ts a b) (ha : a = []) : ts = [] := by
  cases h with
  | nil => rfl
  | white => cases ha
  | comment => simp at ha
  | tok hs => simp at ha; exact absurd ha.1 (spells_ne_nil hs)

/-- A text that ends with white space is complete before anything: the tokens before it do not depend on what
follows. -/
theorem text_complete {p ts a b} (h : Text p ts a b) : ∀ (a' : Bytes) (c : UInt8), a = a' ++ [c] → White c →
    ∀ b', Text p ts a b' := by
  induction h with
  | nil => intro a' c h; simp at h
  | white hc _ ih =>
    rename_i p ts c a b hsub
    intro a' d h hd b'
    refine .white hc ?_
    cases a' with
    | nil =>
      simp at h; obtain ⟨rfl, rfl⟩ := h
      obtain rfl := text_nil hsub rfl
      exact .nil
    | cons x xs => simp at h; exact ih xs d h.2 hd b'
  | comment h1 h2 _ ih =>
    rename_i p ts body c a b hsub
    intro a' d h hd b'
    refine .comment h1 h2 ?_
    rcases List.eq_nil_or_concat a with rfl | ⟨a0, x, rfl⟩
    · obtain rfl := text_nil hsub rfl
      exact .nil
    · have hx : x = d := by
        have h' : (37 :: body ++ c :: a0) ++ [x] = a' ++ [d] := by simpa using h
        simpa using (List.append_inj' h' rfl).2
      subst hx
      exact ih a0 x (by simp) hd b'
  | tok hs hk _ ih =>
    rename_i p t k ts e a b hsub
    intro a' d h hd b'
    rcases List.eq_nil_or_concat a with rfl | ⟨a0, x, rfl⟩
    · exfalso
      rw [List.append_nil] at h
      have hlast : e.getLast? = some d := by rw [h]; simp
      exact spells_last hs d hlast hd
    · have hx : x = d := by
        have := congrArg List.getLast? h
        simpa using this
      subst hx
      refine .tok hs ?_ (ih a0 x (by simp) hd b')
      cases k with
      | anything => trivial
      | notGreater =>
        intro y hy
        refine hk y ?_
        cases a0 <;> simpa using hy
      | notDigitOrDot =>
        obtain ⟨y, r, hy, h2⟩ := hk
        cases a0 with
        | nil => simp at hy; exact ⟨x, b', rfl, by rw [hy.1]; exact h2⟩
        | cons z zs => simp at hy; exact ⟨z, zs ++ x :: b', by simp, by rw [hy.1]; exact h2⟩
      | delimiter =>
        obtain ⟨y, r, hy, h2⟩ := hk
        cases a0 with
        | nil => simp at hy; exact ⟨x, b', rfl, by rw [hy.1]; exact h2⟩
        | cons z zs => simp at hy; exact ⟨z, zs ++ x :: b', by simp, by rw [hy.1]; exact h2⟩
where
  spells_last {e t k} (h : Spells e t k) (d : UInt8) (hl : e.getLast? = some d) (hd : White d) : False := by
    have hmem := List.mem_of_getLast? hl
    have wd : ∀ c : UInt8, White c → ¬ Digit c ∧ Delim c ∧ c ≠ 43 ∧ c ≠ 45 ∧ c ≠ 46 ∧ c ≠ 41 ∧ c ≠ 62 ∧ c ≠ 60 := by
      refine forall_byte ?_; decide +kernel
    have wd2 : ∀ c : UInt8, White c → c ≠ 91 ∧ c ≠ 93 ∧ c ≠ 123 ∧ c ≠ 125 ∧ c ≠ 47 ∧ c ≠ 35 ∧ Spec.hexDigit c = none := by
      refine forall_byte ?_; decide +kernel
    obtain ⟨w1, w2, w3, w4, w5, w6, w7, w8⟩ := wd d hd
    obtain ⟨w9, w10, w11, w12, w13, w14, w15⟩ := wd2 d hd
    cases h with
    | int hs hne hdg =>
      rcases List.mem_append.mp hmem with hm | hm
      · cases hs <;> simp at hm
        · exact w3 hm
        · exact w4 hm
      · exact w1 (hdg d hm)
    | real hs hne h1 h2 =>
      simp only [List.mem_append, List.mem_cons] at hmem
      rcases hmem with (hm | hm) | hm | hm
      · cases hs <;> simp at hm
        · exact w3 hm
        · exact w4 hm
      · exact w1 (h1 d hm)
      · exact w5 hm
      · exact w1 (h2 d hm)
    | str h => rw [List.getLast?_concat] at hl; cases hl; exact w6 rfl
    | hexStr h => rw [List.getLast?_concat] at hl; cases hl; exact w7 rfl
    | name h =>
      have : ∀ {e v}, NameBody e v → ∀ c ∈ e, White c → False := by
        intro e v h
        induction h with
        | nil => simp
        | plain hc _ ih =>
          intro x hx hw
          rcases List.mem_cons.mp hx with rfl | hx
          · exact hc (wd x hw).2.1
          · exact ih x hx hw
        | hex ha hb _ ih =>
          intro x hx hw
          simp only [List.mem_cons] at hx
          have hn := (wd2 x hw).2.2.2.2.2
          rcases hx with rfl | rfl | rfl | hx
          · exact hn.1 rfl
          · rw [hn.2] at ha; cases ha
          · rw [hn.2] at hb; cases hb
          · exact ih x hx hw
      rcases List.mem_cons.mp hmem with rfl | hm
      · exact w13 rfl
      · exact this h d hm hd
    | true => simp at hl; subst hl; exact absurd hd (by decide)
    | false => simp at hl; subst hl; exact absurd hd (by decide)
    | keyword h1 h2 =>
      rcases List.mem_cons.mp hmem with rfl | hm
      · have : ∀ c : UInt8, ((65 ≤ c.toNat ∧ c.toNat ≤ 90) ∨ (97 ≤ c.toNat ∧ c.toNat ≤ 122)) → ¬ White c := by
          refine forall_byte ?_; decide +kernel
        exact this d h1 hd
      · exact h2 d hm w2
    | bracket hc =>
      rename_i c
      have : d = c := by simpa using hmem
      subst this
      simp at hc
      rcases hc with h | h | h | h <;> simp_all
    | dictOpen => simp at hmem; exact w8 hmem
    | dictClose => simp at hmem; exact w7 hmem

/-- C16/C17, usual case: after a well-formed beginning that ends with white space, a comment or more white space
changes nothing in the token values of an arbitrary continuation. -/
theorem comments_and_white_transparent (b : Nat) (hb : 0 < b) (a g rest : Bytes) (c : UInt8) (hc : White c)
    (ts : List (Nat × Tok)) (hg : Gap g) (h : Text 0 ts (a ++ [c]) rest) :
    tokenValues b (a ++ [c] ++ (g ++ rest)) = tokenValues b (a ++ [c] ++ rest) ∧
    (tokenize b (a ++ [c] ++ (g ++ rest)) 0).2 = (tokenize b (a ++ [c] ++ rest) 0).2 :=
  gap_transparent b hb (a ++ [c]) g rest ts ts hg h (text_complete h a c rfl hc (g ++ rest)) rfl

/-- `/A ` then `%x⏎` then an unfinished string. -/
example : Gap [37, 120, 10] ∧ Text 0 [(0, .lit [65])] ([47, 65] ++ [32]) [40, 40] :=
  ⟨gap_comment (body := [120]) (by decide) (by decide) gap_nil,
   .tok (e := [47, 65]) (.name (.plain (by decide) .nil)) ⟨32, _, rfl, by decide, by decide⟩ (.white (by decide) .nil)⟩

end Pdf

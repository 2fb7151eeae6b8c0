import Verif.Model.Lexer
/-! A byte-at-a-time machine equivalent to the buffered tokenizer, and the simulation theorem. -/

namespace Pdf

abbrev StepOut := LexSt × List (Nat × Tok)

def stepMain (st : LexSt) (p : Nat) (c : UInt8) : StepOut :=
  if isSpace c then (st, []) else mainDispatch st p c

/-- Emit `toks`, go to the main state and let it handle `c`. -/
def toMain (st : LexSt) (toks : List (Nat × Tok)) (p : Nat) (c : UInt8) : StepOut :=
  let r := stepMain { st with fn := .main } p c
  (r.1, toks ++ r.2)

def stepComment (st : LexSt) (p : Nat) (c : UInt8) : StepOut :=
  if isEol c then toMain st [] p c else ({ st with cur := st.cur ++ [c] }, [])

def stepLiteral (st : LexSt) (p : Nat) (c : UInt8) : StepOut :=
  if isEndWord c then
    if c = 35 then ({ st with hex := [], fn := .literalHex }, [])
    else toMain st [(st.tpos, .lit st.cur)] p c
  else ({ st with cur := st.cur ++ [c] }, [])

def stepLiteralHex (st : LexSt) (p : Nat) (c : UInt8) : StepOut :=
  if isHex c = true ∧ st.hex.length < 2 then ({ st with hex := st.hex ++ [c] }, [])
  else if st.hex ≠ [] then
    stepLiteral { st with cur := st.cur ++ [UInt8.ofNat (hexVals st.hex)], fn := .literal } p c
  else stepLiteral { st with fn := .literal } p c

def intToks (st : LexSt) : List (Nat × Tok) :=
  match intOf st.cur with
  | some n => [(st.tpos, .int n)]
  | none => []

def floatToks (st : LexSt) : List (Nat × Tok) :=
  match floatOf st.cur with
  | some (m, k) => [(st.tpos, .real m k)]
  | none => []

def stepNumber (st : LexSt) (p : Nat) (c : UInt8) : StepOut :=
  if isDigit c then ({ st with cur := st.cur ++ [c] }, [])
  else if c = 46 then ({ st with cur := st.cur ++ [c], fn := .float }, [])
  else toMain st (intToks st) p c

def stepFloat (st : LexSt) (p : Nat) (c : UInt8) : StepOut :=
  if isDigit c then ({ st with cur := st.cur ++ [c] }, [])
  else toMain st (floatToks st) p c

def stepKeyword (st : LexSt) (p : Nat) (c : UInt8) : StepOut :=
  if isEndWord c then toMain st [(st.tpos, keywordTok st.cur)] p c
  else ({ st with cur := st.cur ++ [c] }, [])

def stepString (st : LexSt) (c : UInt8) : StepOut :=
  if isEndString c then
    if c = 92 then ({ st with oct := [], fn := .string1 }, [])
    else if c = 40 then ({ st with cur := st.cur ++ [c], paren := st.paren + 1 }, [])
    else if st.paren - 1 ≠ 0 then ({ st with cur := st.cur ++ [c], paren := st.paren - 1 }, [])
    else ({ st with paren := st.paren - 1, fn := .main }, [(st.tpos, .str st.cur)])
  else ({ st with cur := st.cur ++ [c] }, [])

def stepString1 (st : LexSt) (c : UInt8) : Except PyErr StepOut :=
  if isOct c = true ∧ st.oct.length < 3 then .ok ({ st with oct := st.oct ++ [c] }, [])
  else if st.oct ≠ [] then
    if octVal st.oct < 256 then
      .ok (stepString { st with cur := st.cur ++ [UInt8.ofNat (octVal st.oct)], fn := .string } c)
    else .error .structError
  else
    match escString c with
    | some e => .ok ({ st with cur := st.cur ++ [e], fn := .string }, [])
    | none => .ok ({ st with fn := .string }, [])

def hexTok (cur : Bytes) : Tok := .str (hexPairs (cur.filter (fun c => !isSpace c)))

def stepHexstring (st : LexSt) (p : Nat) (c : UInt8) : StepOut :=
  if isEndHexString c then toMain st [(st.tpos, hexTok st.cur)] p c
  else ({ st with cur := st.cur ++ [c] }, [])

def stepWopen (st : LexSt) (p : Nat) (c : UInt8) : StepOut :=
  if c = 60 then ({ st with fn := .main }, [(st.tpos, .kw [60, 60])])
  else stepHexstring { st with fn := .hexstring } p c

def stepWclose (st : LexSt) (p : Nat) (c : UInt8) : StepOut :=
  if c = 62 then ({ st with fn := .main }, [(st.tpos, .kw [62, 62])])
  else toMain st [] p c

/-- One byte. -/
def lexStep (st : LexSt) (p : Nat) (c : UInt8) : Except PyErr StepOut :=
  match st.fn with
  | .main => .ok (stepMain st p c)
  | .comment => .ok (stepComment st p c)
  | .literal => .ok (stepLiteral st p c)
  | .literalHex => .ok (stepLiteralHex st p c)
  | .number => .ok (stepNumber st p c)
  | .float => .ok (stepFloat st p c)
  | .keyword => .ok (stepKeyword st p c)
  | .string => .ok (stepString st c)
  | .string1 => stepString1 st c
  | .wopen => .ok (stepWopen st p c)
  | .wclose => .ok (stepWclose st p c)
  | .hexstring => .ok (stepHexstring st p c)

/-- Tokens and the exception that ends them. -/
abbrev Stream := List (Nat × Tok) × PyErr

def Stream.pre (toks : List (Nat × Tok)) (s : Stream) : Stream := (toks ++ s.1, s.2)

@[simp] theorem Stream.pre_nil (s : Stream) : Stream.pre [] s = s := rfl
@[simp] theorem Stream.pre_pre (a b : List (Nat × Tok)) (s : Stream) : Stream.pre a (Stream.pre b s) = Stream.pre (a ++ b) s := by
  simp [Stream.pre]

/-- All bytes. -/
def lexRun (st : LexSt) (p : Nat) : Bytes → Stream
  | [] => ([], .psEOF)
  | c :: cs =>
    match lexStep st p c with
    | .error e => ([], e)
    | .ok (st', toks) => Stream.pre toks (lexRun st' (p + 1) cs)

theorem lexRun_ok {st p c st' toks} (h : lexStep st p c = .ok (st', toks)) (cs : Bytes) :
    lexRun st p (c :: cs) = Stream.pre toks (lexRun st' (p + 1) cs) := by
  rw [lexRun, h]

theorem lexRun_err {st p c e} (h : lexStep st p c = .error e) (cs : Bytes) :
    lexRun st p (c :: cs) = ([], e) := by
  rw [lexRun, h]

/-- A run of bytes that are just collected. -/
theorem lexRun_collect (fn : LexFn) (stop : UInt8 → Bool)
    (hstep : ∀ st p c, st.fn = fn → stop c = false → lexStep st p c = .ok ({ st with cur := st.cur ++ [c] }, []))
    (u : Bytes) (st : LexSt) (p : Nat) (rest : Bytes) (hf : st.fn = fn) (hu : ∀ c ∈ u, stop c = false) :
    lexRun st p (u ++ rest) = lexRun { st with cur := st.cur ++ u } (p + u.length) rest := by
  induction u generalizing st p with
  | nil => simp
  | cons c cs ih =>
    rw [List.cons_append, lexRun_ok (hstep st p c hf (hu c List.mem_cons_self)), Stream.pre_nil,
      ih { st with cur := st.cur ++ [c] } _ hf (fun d hd => hu d (List.mem_cons_of_mem _ hd))]
    simp [Nat.add_comm, Nat.add_left_comm]

theorem step_comment (st p c) (h : st.fn = .comment) (hc : isEol c = false) :
    lexStep st p c = .ok ({ st with cur := st.cur ++ [c] }, []) := by
  simp [lexStep, h, stepComment, hc]
theorem step_literal (st p c) (h : st.fn = .literal) (hc : isEndWord c = false) :
    lexStep st p c = .ok ({ st with cur := st.cur ++ [c] }, []) := by
  simp [lexStep, h, stepLiteral, hc]
theorem step_keyword (st p c) (h : st.fn = .keyword) (hc : isEndWord c = false) :
    lexStep st p c = .ok ({ st with cur := st.cur ++ [c] }, []) := by
  simp [lexStep, h, stepKeyword, hc]
theorem step_number (st p c) (h : st.fn = .number) (hc : (!isDigit c) = false) :
    lexStep st p c = .ok ({ st with cur := st.cur ++ [c] }, []) := by
  simp at hc; simp [lexStep, h, stepNumber, hc]
theorem step_float (st p c) (h : st.fn = .float) (hc : (!isDigit c) = false) :
    lexStep st p c = .ok ({ st with cur := st.cur ++ [c] }, []) := by
  simp at hc; simp [lexStep, h, stepFloat, hc]
theorem step_string (st p c) (h : st.fn = .string) (hc : isEndString c = false) :
    lexStep st p c = .ok ({ st with cur := st.cur ++ [c] }, []) := by
  simp [lexStep, h, stepString, hc]
theorem step_hexstring (st p c) (h : st.fn = .hexstring) (hc : isEndHexString c = false) :
    lexStep st p c = .ok ({ st with cur := st.cur ++ [c] }, []) := by
  simp [lexStep, h, stepHexstring, hc]

/-- A run of white space in the main state. -/
theorem lexRun_space (u : Bytes) (st : LexSt) (p : Nat) (rest : Bytes) (hf : st.fn = .main)
    (hu : ∀ c ∈ u, isSpace c = true) : lexRun st p (u ++ rest) = lexRun st (p + u.length) rest := by
  induction u generalizing p with
  | nil => simp
  | cons c cs ih =>
    have h : lexStep st p c = .ok (st, []) := by
      simp [lexStep, hf, stepMain, hu c List.mem_cons_self]
    rw [List.cons_append, lexRun_ok h, Stream.pre_nil, ih _ (fun d hd => hu d (List.mem_cons_of_mem _ hd))]
    simp [Nat.add_comm, Nat.add_left_comm]

/-- How far a state is from consuming a byte. -/
def LexFn.rank : LexFn → Nat
  | .main => 0 | .string => 0
  | .literalHex => 2 | .wopen => 2
  | _ => 1

/-- One call of a parse function behaves like the byte machine on the bytes it consumes. -/
def CallOk (st : LexSt) (pos : Nat) (w : Bytes) : Except PyErr LexOut → Prop
  | .error e => ∀ rest, lexRun st pos (w ++ rest) = ([], e)
  | .ok (st', n, toks) => n ≤ w.length ∧ toks.length ≤ 1 ∧
      (0 < n ∨ st'.fn.rank < st.fn.rank) ∧
      ∀ rest, lexRun st pos (w ++ rest) = Stream.pre toks (lexRun st' (pos + n) (w.drop n ++ rest))

theorem takeWhile_all (p : UInt8 → Bool) (w : Bytes) : ∀ c ∈ w.takeWhile p, p c = true := by
  intro c hc; exact List.all_eq_true.mp List.all_takeWhile c hc

theorem lexRun_toMain {st : LexSt} {p c toks} (h : lexStep st p c = .ok (toMain st toks p c)) (cs : Bytes) :
    lexRun st p (c :: cs) = Stream.pre toks (lexRun { st with fn := .main } p (c :: cs)) := by
  have h2 : lexStep { st with fn := .main } p c = .ok (stepMain { st with fn := .main } p c) := rfl
  rw [lexRun_ok h, lexRun_ok (by rw [h2])]
  simp

theorem drop_takeWhile_length (p : UInt8 → Bool) (w : Bytes) : w.drop (w.takeWhile p).length = w.dropWhile p := by
  conv => lhs; arg 2; rw [← List.takeWhile_append_dropWhile (p := p) (l := w)]
  rw [List.drop_left]

/-- Generic treatment of the functions that search for the first stop byte. -/
theorem search_split (p : UInt8 → Bool) (w : Bytes) :
    (w.dropWhile p = [] ∧ w.takeWhile p = w) ∨
    ∃ c r, w.dropWhile p = c :: r ∧ p c = false ∧ w = w.takeWhile p ++ c :: r := by
  cases h : w.dropWhile p with
  | nil =>
    left
    have := List.takeWhile_append_dropWhile (p := p) (l := w)
    rw [h, List.append_nil] at this
    exact ⟨rfl, this⟩
  | cons c r =>
    right
    refine ⟨c, r, rfl, ?_, ?_⟩
    · have hne : w.dropWhile p ≠ [] := by rw [h]; simp
      have := List.head_dropWhile_not p hne
      simpa [h] using this
    · rw [← h, List.takeWhile_append_dropWhile]

theorem split_len {p : UInt8 → Bool} {w : Bytes} {c : UInt8} {r : Bytes} (h : w.dropWhile p = c :: r) :
    (w.takeWhile p).length + 1 ≤ w.length := by
  have := congrArg List.length (List.takeWhile_append_dropWhile (p := p) (l := w))
  rw [h] at this
  simp at this; omega

theorem callOk_main (st : LexSt) (pos : Nat) (w : Bytes) (hw : w ≠ []) (hf : st.fn = .main) :
    CallOk st pos w (.ok (parseMain st pos w)) := by
  rcases search_split isSpace w with ⟨h1, h2⟩ | ⟨c, r, h1, h2, h3⟩
  · simp only [parseMain, h1, CallOk, Nat.le_refl, List.length_nil, Nat.zero_le, true_and]
    refine ⟨Or.inl (List.length_pos_iff.mpr hw), fun rest => ?_⟩
    rw [lexRun_space w st pos rest hf (fun c hc => takeWhile_all isSpace w c (by rw [h2]; exact hc))]
    simp
  · simp only [parseMain, h1, CallOk]
    refine ⟨split_len h1, ?_, Or.inl (by omega), fun rest => ?_⟩
    · unfold mainDispatch; dsimp only; repeat' split
      all_goals simp
    · conv => lhs; rw [h3]
      rw [List.append_assoc, lexRun_space _ st pos _ hf (takeWhile_all isSpace w), List.cons_append,
        lexRun_ok (st' := (mainDispatch st (pos + (w.takeWhile isSpace).length) c).1)
          (toks := (mainDispatch st (pos + (w.takeWhile isSpace).length) c).2)
          (by simp [lexStep, hf, stepMain, h2])]
      rw [show w.drop ((w.takeWhile isSpace).length + 1) = r by
        rw [← List.drop_drop, drop_takeWhile_length, h1]; rfl, Nat.add_assoc]

/-- A searching function that hands the stop byte back to the main state. -/
theorem callOk_search (fn : LexFn) (stop : UInt8 → Bool) (st : LexSt) (pos : Nat) (w : Bytes) (hw : w ≠ [])
    (hf : st.fn = fn) (hrank : fn.rank = 1) (tk : LexSt → List (Nat × Tok)) (htk : ∀ st, (tk st).length ≤ 1)
    (hstep : ∀ st p c, st.fn = fn → stop c = false → lexStep st p c = .ok ({ st with cur := st.cur ++ [c] }, []))
    (hstop : ∀ st p c, st.fn = fn → stop c = true → lexStep st p c = .ok (toMain st (tk st) p c)) :
    CallOk st pos w (.ok
      (match w.dropWhile (fun c => !stop c) with
       | [] => ({ st with cur := st.cur ++ w }, w.length, [])
       | _ :: _ => ({ st with cur := st.cur ++ w.takeWhile (fun c => !stop c), fn := .main },
          (w.takeWhile (fun c => !stop c)).length, tk { st with cur := st.cur ++ w.takeWhile (fun c => !stop c) }))) := by
  rcases search_split (fun c => !stop c) w with ⟨h1, h2⟩ | ⟨c, r, h1, h2, h3⟩
  · simp only [h1, CallOk, Nat.le_refl, List.length_nil, Nat.zero_le, true_and]
    refine ⟨Or.inl (List.length_pos_iff.mpr hw), fun rest => ?_⟩
    rw [lexRun_collect fn stop hstep w st pos rest hf
      (fun c hc => by simpa using takeWhile_all (fun c => !stop c) w c (by rw [h2]; exact hc))]
    simp
  · simp only [h1, CallOk]
    refine ⟨List.Sublist.length_le (List.takeWhile_sublist _), htk _,
      Or.inr (by rw [hf, hrank]; decide), fun rest => ?_⟩
    conv => lhs; rw [h3]
    rw [List.append_assoc, lexRun_collect fn stop hstep _ st pos _ hf
      (fun c hc => by simpa using takeWhile_all (fun c => !stop c) w c hc), List.cons_append]
    rw [lexRun_toMain (hstop { st with cur := st.cur ++ w.takeWhile (fun c => !stop c) } _ c hf (by simpa using h2)),
      drop_takeWhile_length, h1]
    rfl

theorem parseCall_ok (st : LexSt) (pos : Nat) (w : Bytes) (hw : w ≠ []) :
    CallOk st pos w (parseCall st pos w) := by
  obtain ⟨d, ds, hd⟩ := List.exists_cons_of_ne_nil hw
  have hpos : 0 < w.length := List.length_pos_iff.mpr hw
  obtain ⟨fn, cur, tpos, paren, hex, oct⟩ := st
  cases fn with
  | main => simp only [parseCall]; exact callOk_main _ pos w hw rfl
  | comment =>
    have := callOk_search .comment isEol ⟨.comment, cur, tpos, paren, hex, oct⟩ pos w hw rfl rfl (fun _ => []) (fun _ => by simp) step_comment
      (fun st p c h hc => by simp [lexStep, h, stepComment, hc])
    simp only [parseCall, parseComment]; exact this
  | keyword =>
    have := callOk_search .keyword isEndWord ⟨.keyword, cur, tpos, paren, hex, oct⟩ pos w hw rfl rfl (fun st => [(st.tpos, keywordTok st.cur)]) (fun _ => by simp)
      step_keyword (fun st p c h hc => by simp [lexStep, h, stepKeyword, hc])
    simp only [parseCall, parseKeyword]; exact this
  | hexstring =>
    have := callOk_search .hexstring isEndHexString ⟨.hexstring, cur, tpos, paren, hex, oct⟩ pos w hw rfl rfl (fun st => [(st.tpos, hexTok st.cur)]) (fun _ => by simp)
      step_hexstring (fun st p c h hc => by simp [lexStep, h, stepHexstring, hc])
    simp only [parseCall, parseHexstring]; exact this
  | float =>
    have := callOk_search .float (fun c => !isDigit c) ⟨.float, cur, tpos, paren, hex, oct⟩ pos w hw rfl rfl floatToks
      (fun st => by unfold floatToks; split <;> simp)
      step_float (fun st p c h hc => by simp at hc; simp [lexStep, h, stepFloat, hc])
    simp only [Bool.not_not] at this
    simp only [parseCall, parseFloat]; exact this
  | number =>
    simp only [parseCall, parseNumber]
    rcases search_split isDigit w with ⟨h1, h2⟩ | ⟨c, r, h1, h2, h3⟩
    · simp only [h1, CallOk, Nat.le_refl, List.length_nil, Nat.zero_le, true_and]
      refine ⟨Or.inl hpos, fun rest => ?_⟩
      rw [lexRun_collect .number (fun c => !isDigit c) step_number w _ pos rest rfl
        (fun c hc => by simpa using takeWhile_all isDigit w c (by rw [h2]; exact hc))]
      simp
    · simp only [h1]
      have hpre := lexRun_collect .number (fun c => !isDigit c) step_number (w.takeWhile isDigit) ⟨.number, cur, tpos, paren, hex, oct⟩ pos
      have hall : ∀ c ∈ w.takeWhile isDigit, (fun c => !isDigit c) c = false :=
        fun c hc => by simpa using takeWhile_all isDigit w c hc
      split
      · rename_i hc
        refine ⟨split_len h1, by simp, Or.inl (by simp), fun rest => ?_⟩
        conv => lhs; rw [h3]
        rw [List.append_assoc, hpre _ rfl hall, List.cons_append,
          lexRun_ok (st' := { LexSt.mk .number cur tpos paren hex oct with cur := cur ++ w.takeWhile isDigit ++ [c], fn := .float }) (toks := [])
            (by simp [lexStep, stepNumber, hc, show isDigit 46 = false by decide])]
        rw [show w.drop ((w.takeWhile isDigit).length + 1) = r by
          rw [← List.drop_drop, drop_takeWhile_length, h1]; rfl, Nat.add_assoc]
      · rename_i hc
        refine ⟨List.Sublist.length_le (List.takeWhile_sublist _), by split <;> simp,
          Or.inr (by simp [LexFn.rank]), fun rest => ?_⟩
        conv => lhs; rw [h3]
        rw [List.append_assoc, hpre _ rfl hall, List.cons_append,
          lexRun_toMain (toks := intToks { LexSt.mk .number cur tpos paren hex oct with cur := cur ++ w.takeWhile isDigit })
            (by simp [lexStep, stepNumber, h2, hc]),
          drop_takeWhile_length, h1]
        rfl
  | literal =>
    simp only [parseCall, parseLiteral]
    rcases search_split (fun c => !isEndWord c) w with ⟨h1, h2⟩ | ⟨c, r, h1, h2, h3⟩
    · simp only [h1, CallOk, Nat.le_refl, List.length_nil, Nat.zero_le, true_and]
      refine ⟨Or.inl hpos, fun rest => ?_⟩
      rw [lexRun_collect .literal isEndWord step_literal w _ pos rest rfl
        (fun c hc => by simpa using takeWhile_all (fun c => !isEndWord c) w c (by rw [h2]; exact hc))]
      simp
    · simp only [h1]
      have hpre := lexRun_collect .literal isEndWord step_literal (w.takeWhile (fun c => !isEndWord c)) ⟨.literal, cur, tpos, paren, hex, oct⟩ pos
      have hall : ∀ c ∈ w.takeWhile (fun c => !isEndWord c), isEndWord c = false :=
        fun c hc => by simpa using takeWhile_all (fun c => !isEndWord c) w c hc
      simp only [Bool.not_eq_false'] at h2
      split
      · rename_i hc
        refine ⟨split_len h1, by simp, Or.inl (by simp), fun rest => ?_⟩
        conv => lhs; rw [h3]
        rw [List.append_assoc, hpre _ rfl hall, List.cons_append,
          lexRun_ok (st' := { LexSt.mk .literal cur tpos paren hex oct with cur := cur ++ w.takeWhile (fun c => !isEndWord c), hex := [], fn := .literalHex }) (toks := [])
            (by simp [lexStep, stepLiteral, hc, show isEndWord 35 = true by decide])]
        rw [show w.drop ((w.takeWhile (fun c => !isEndWord c)).length + 1) = r by
          rw [← List.drop_drop, drop_takeWhile_length, h1]; rfl, Nat.add_assoc]
      · rename_i hc
        refine ⟨List.Sublist.length_le (List.takeWhile_sublist _), by simp,
          Or.inr (by simp [LexFn.rank]), fun rest => ?_⟩
        conv => lhs; rw [h3]
        rw [List.append_assoc, hpre _ rfl hall, List.cons_append,
          lexRun_toMain (toks := [(tpos, .lit (cur ++ w.takeWhile (fun c => !isEndWord c)))])
            (by simp [lexStep, stepLiteral, h2, hc]),
          drop_takeWhile_length, h1]
        rfl
  | string =>
    simp only [parseCall, parseString]
    rcases search_split (fun c => !isEndString c) w with ⟨h1, h2⟩ | ⟨c, r, h1, h2, h3⟩
    · simp only [h1, CallOk, Nat.le_refl, List.length_nil, Nat.zero_le, true_and]
      refine ⟨Or.inl hpos, fun rest => ?_⟩
      rw [lexRun_collect .string isEndString step_string w _ pos rest rfl
        (fun c hc => by simpa using takeWhile_all (fun c => !isEndString c) w c (by rw [h2]; exact hc))]
      simp
    · simp only [h1]
      have hpre := lexRun_collect .string isEndString step_string (w.takeWhile (fun c => !isEndString c)) ⟨.string, cur, tpos, paren, hex, oct⟩ pos
      have hall : ∀ c ∈ w.takeWhile (fun c => !isEndString c), isEndString c = false :=
        fun c hc => by simpa using takeWhile_all (fun c => !isEndString c) w c hc
      simp only [Bool.not_eq_false'] at h2
      have hdrop : w.drop ((w.takeWhile (fun c => !isEndString c)).length + 1) = r := by
        rw [← List.drop_drop, drop_takeWhile_length, h1]; rfl
      have hstep : ∀ rest, lexRun ⟨.string, cur, tpos, paren, hex, oct⟩ pos (w ++ rest) =
          lexRun { LexSt.mk .string cur tpos paren hex oct with cur := cur ++ w.takeWhile (fun c => !isEndString c) }
            (pos + (w.takeWhile (fun c => !isEndString c)).length) (c :: (r ++ rest)) := by
        intro rest
        conv => lhs; rw [h3]
        rw [List.append_assoc, hpre _ rfl hall, List.cons_append]
      have hn : (w.takeWhile (fun c => !isEndString c)).length + 1 ≤ w.length := by
        conv => rhs; rw [h3]
        simp
      repeat' split
      all_goals
        refine ⟨hn, by simp, Or.inl (by simp), fun rest => ?_⟩
        rw [hstep, hdrop, ← Nat.add_assoc]
        refine lexRun_ok ?_ _
        clear hstep hdrop hn h3 h1 hpre hall hw hpos hd
        simp_all [lexStep, stepString]
  | literalHex =>
    subst hd
    simp only [parseCall, parseLiteralHex]
    split
    · rename_i hc
      refine ⟨by simp, by simp, Or.inl (by simp), fun rest => ?_⟩
      rw [List.cons_append, lexRun_ok (st' := ⟨.literalHex, cur, tpos, paren, hex ++ [d], oct⟩) (toks := []) (by simp [lexStep, stepLiteralHex, hc])]
      rfl
    · rename_i hc
      split
      · rename_i hh
        refine ⟨by simp, by simp, Or.inr (by simp [LexFn.rank]), fun rest => ?_⟩
        simp only [List.cons_append, List.drop_zero, Stream.pre_nil, Nat.add_zero]
        rw [lexRun, lexRun]
        congr 1
        simp [lexStep, stepLiteralHex, hc, hh]
      · rename_i hh
        refine ⟨by simp, by simp, Or.inr (by simp [LexFn.rank]), fun rest => ?_⟩
        simp only [List.cons_append, List.drop_zero, Stream.pre_nil, Nat.add_zero]
        rw [lexRun, lexRun]
        congr 1
        simp [lexStep, stepLiteralHex, hc, hh]
  | string1 =>
    subst hd
    simp only [parseCall, parseString1]
    split
    · rename_i hc
      refine ⟨by simp, by simp, Or.inl (by simp), fun rest => ?_⟩
      rw [List.cons_append, lexRun_ok (st' := ⟨.string1, cur, tpos, paren, hex, oct ++ [d]⟩) (toks := []) (by simp [lexStep, stepString1, hc])]
      rfl
    · rename_i hc
      split
      · rename_i ho
        split
        · rename_i hv
          refine ⟨by simp, by simp, Or.inr (by simp [LexFn.rank]), fun rest => ?_⟩
          simp only [List.cons_append, List.drop_zero, Stream.pre_nil, Nat.add_zero]
          rw [lexRun, lexRun]
          congr 1
          simp only [lexStep, stepString1]
          rw [if_neg hc, if_pos ho, if_pos hv]
        · rename_i hv
          intro rest
          rw [List.cons_append]
          exact lexRun_err (by simp [lexStep, stepString1, hc, ho, hv]) _
      · rename_i ho
        split
        · rename_i e he
          refine ⟨by simp, by simp, Or.inl (by simp), fun rest => ?_⟩
          rw [List.cons_append]
          exact lexRun_ok (by simp [lexStep, stepString1, hc, ho, he]) _
        · rename_i he
          refine ⟨by simp, by simp, Or.inl (by simp), fun rest => ?_⟩
          rw [List.cons_append]
          exact lexRun_ok (by simp [lexStep, stepString1, hc, ho, he]) _
  | wopen =>
    subst hd
    simp only [parseCall, parseWopen]
    split
    · rename_i hc
      refine ⟨by simp, by simp, Or.inl (by simp), fun rest => ?_⟩
      rw [List.cons_append]
      exact lexRun_ok (by simp [lexStep, stepWopen, hc]) _
    · rename_i hc
      refine ⟨by simp, by simp, Or.inr (by simp [LexFn.rank]), fun rest => ?_⟩
      simp only [List.cons_append, List.drop_zero, Stream.pre_nil, Nat.add_zero]
      rw [lexRun, lexRun]
      congr 1
      simp [lexStep, stepWopen, hc]
  | wclose =>
    subst hd
    simp only [parseCall, parseWclose]
    split
    · rename_i hc
      refine ⟨by simp, by simp, Or.inl (by simp), fun rest => ?_⟩
      rw [List.cons_append]
      exact lexRun_ok (by simp [lexStep, stepWclose, hc]) _
    · rename_i hc
      refine ⟨by simp, by simp, Or.inr (by simp [LexFn.rank]), fun rest => ?_⟩
      simp only [List.cons_append, List.drop_zero, Nat.add_zero]
      exact lexRun_toMain (by simp [lexStep, stepWclose, hc]) _

end Pdf

import Verif.Proofs.Tokenizer
import Verif.Model.ContentParser
/-! The byte machine with a continuation: what follows the bytes is not the end of the file but the next stream. Tokens are
tagged. The proofs are those of `Proofs/LexMachine`. -/

namespace Pdf

/-- Tagged tokens and the exception that ends them. -/
abbrev TStream (α : Type) := List α × PyErr

def TStream.pre {α : Type} (tag : Nat × Tok → α) (toks : List (Nat × Tok)) (s : TStream α) : TStream α := (toks.map tag ++ s.1, s.2)

variable {α : Type} {tag : Nat × Tok → α} {k : LexSt → TStream α}

@[simp] theorem APre_nil (s : TStream α) : TStream.pre tag [] s = s := rfl
@[simp] theorem APre_pre (a b : List (Nat × Tok)) (s : TStream α) : TStream.pre tag a (TStream.pre tag b s) = TStream.pre tag (a ++ b) s := by
  simp [TStream.pre]

/-- All bytes, then `k`. -/
def lexRunK (tag : Nat × Tok → α) (k : LexSt → TStream α) (st : LexSt) (p : Nat) : Bytes → TStream α
  | [] => k st
  | c :: cs =>
    match lexStep st p c with
    | .error e => ([], e)
    | .ok (st', toks) => TStream.pre tag toks (lexRunK tag k st' (p + 1) cs)

theorem lexRunK_ok {st p c st' toks} (h : lexStep st p c = .ok (st', toks)) (cs : Bytes) :
    lexRunK tag k st p (c :: cs) = TStream.pre tag toks (lexRunK tag k st' (p + 1) cs) := by
  rw [lexRunK, h]

theorem lexRunK_err {st p c e} (h : lexStep st p c = .error e) (cs : Bytes) :
    lexRunK tag k st p (c :: cs) = ([], e) := by
  rw [lexRunK, h]

/-- A run of bytes that are just collected. -/
theorem lexRunK_collect (fn : LexFn) (stop : UInt8 → Bool)
    (hstep : ∀ st p c, st.fn = fn → stop c = false → lexStep st p c = .ok ({ st with cur := st.cur ++ [c] }, []))
    (u : Bytes) (st : LexSt) (p : Nat) (rest : Bytes) (hf : st.fn = fn) (hu : ∀ c ∈ u, stop c = false) :
    lexRunK tag k st p (u ++ rest) = lexRunK tag k { st with cur := st.cur ++ u } (p + u.length) rest := by
  induction u generalizing st p with
  | nil => simp
  | cons c cs ih =>
    rw [List.cons_append, lexRunK_ok (hstep st p c hf (hu c List.mem_cons_self)), APre_nil,
      ih { st with cur := st.cur ++ [c] } _ hf (fun d hd => hu d (List.mem_cons_of_mem _ hd))]
    simp [Nat.add_comm, Nat.add_left_comm]

/-- A run of white space in the main state. -/
theorem lexRunK_space (u : Bytes) (st : LexSt) (p : Nat) (rest : Bytes) (hf : st.fn = .main)
    (hu : ∀ c ∈ u, isSpace c = true) : lexRunK tag k st p (u ++ rest) = lexRunK tag k st (p + u.length) rest := by
  induction u generalizing p with
  | nil => simp
  | cons c cs ih =>
    have h : lexStep st p c = .ok (st, []) := by
      simp [lexStep, hf, stepMain, hu c List.mem_cons_self]
    rw [List.cons_append, lexRunK_ok h, APre_nil, ih _ (fun d hd => hu d (List.mem_cons_of_mem _ hd))]
    simp [Nat.add_comm, Nat.add_left_comm]

/-- One call of a parse function behaves like the byte machine on the bytes it consumes. -/
def CallOkK (tag : Nat × Tok → α) (k : LexSt → TStream α) (st : LexSt) (pos : Nat) (w : Bytes) : Except PyErr LexOut → Prop
  | .error e => ∀ rest, lexRunK tag k st pos (w ++ rest) = ([], e)
  | .ok (st', n, toks) => n ≤ w.length ∧ toks.length ≤ 1 ∧
      (0 < n ∨ st'.fn.rank < st.fn.rank) ∧
      ∀ rest, lexRunK tag k st pos (w ++ rest) = TStream.pre tag toks (lexRunK tag k st' (pos + n) (w.drop n ++ rest))

theorem lexRunK_toMain {st : LexSt} {p c toks} (h : lexStep st p c = .ok (toMain st toks p c)) (cs : Bytes) :
    lexRunK tag k st p (c :: cs) = TStream.pre tag toks (lexRunK tag k { st with fn := .main } p (c :: cs)) := by
  have h2 : lexStep { st with fn := .main } p c = .ok (stepMain { st with fn := .main } p c) := rfl
  rw [lexRunK_ok h, lexRunK_ok (by rw [h2])]
  simp

theorem callOkK_main (st : LexSt) (pos : Nat) (w : Bytes) (hw : w ≠ []) (hf : st.fn = .main) :
    CallOkK tag k st pos w (.ok (parseMain st pos w)) := by
  rcases search_split isSpace w with ⟨h1, h2⟩ | ⟨c, r, h1, h2, h3⟩
  · simp only [parseMain, h1, CallOkK, Nat.le_refl, List.length_nil, Nat.zero_le, true_and]
    refine ⟨Or.inl (List.length_pos_iff.mpr hw), fun rest => ?_⟩
    rw [lexRunK_space w st pos rest hf (fun c hc => takeWhile_all isSpace w c (by rw [h2]; exact hc))]
    simp
  · simp only [parseMain, h1, CallOkK]
    refine ⟨split_len h1, ?_, Or.inl (by omega), fun rest => ?_⟩
    · unfold mainDispatch; dsimp only; repeat' split
      all_goals simp
    · conv => lhs; rw [h3]
      rw [List.append_assoc, lexRunK_space _ st pos _ hf (takeWhile_all isSpace w), List.cons_append,
        lexRunK_ok (st' := (mainDispatch st (pos + (w.takeWhile isSpace).length) c).1)
          (toks := (mainDispatch st (pos + (w.takeWhile isSpace).length) c).2)
          (by simp [lexStep, hf, stepMain, h2])]
      rw [show w.drop ((w.takeWhile isSpace).length + 1) = r by
        rw [← List.drop_drop, drop_takeWhile_length, h1]; rfl, Nat.add_assoc]

/-- A searching function that hands the stop byte back to the main state. -/
theorem callOkK_search (fn : LexFn) (stop : UInt8 → Bool) (st : LexSt) (pos : Nat) (w : Bytes) (hw : w ≠ [])
    (hf : st.fn = fn) (hrank : fn.rank = 1) (tk : LexSt → List (Nat × Tok)) (htk : ∀ st, (tk st).length ≤ 1)
    (hstep : ∀ st p c, st.fn = fn → stop c = false → lexStep st p c = .ok ({ st with cur := st.cur ++ [c] }, []))
    (hstop : ∀ st p c, st.fn = fn → stop c = true → lexStep st p c = .ok (toMain st (tk st) p c)) :
    CallOkK tag k st pos w (.ok
      (match w.dropWhile (fun c => !stop c) with
       | [] => ({ st with cur := st.cur ++ w }, w.length, [])
       | _ :: _ => ({ st with cur := st.cur ++ w.takeWhile (fun c => !stop c), fn := .main },
          (w.takeWhile (fun c => !stop c)).length, tk { st with cur := st.cur ++ w.takeWhile (fun c => !stop c) }))) := by
  rcases search_split (fun c => !stop c) w with ⟨h1, h2⟩ | ⟨c, r, h1, h2, h3⟩
  · simp only [h1, CallOkK, Nat.le_refl, List.length_nil, Nat.zero_le, true_and]
    refine ⟨Or.inl (List.length_pos_iff.mpr hw), fun rest => ?_⟩
    rw [lexRunK_collect fn stop hstep w st pos rest hf
      (fun c hc => by simpa using takeWhile_all (fun c => !stop c) w c (by rw [h2]; exact hc))]
    simp
  · simp only [h1, CallOkK]
    refine ⟨List.Sublist.length_le (List.takeWhile_sublist _), htk _,
      Or.inr (by rw [hf, hrank]; decide), fun rest => ?_⟩
    conv => lhs; rw [h3]
    rw [List.append_assoc, lexRunK_collect fn stop hstep _ st pos _ hf
      (fun c hc => by simpa using takeWhile_all (fun c => !stop c) w c hc), List.cons_append]
    rw [lexRunK_toMain (hstop { st with cur := st.cur ++ w.takeWhile (fun c => !stop c) } _ c hf (by simpa using h2)),
      drop_takeWhile_length, h1]
    rfl

theorem parseCall_okK (st : LexSt) (pos : Nat) (w : Bytes) (hw : w ≠ []) :
    CallOkK tag k st pos w (parseCall st pos w) := by
  obtain ⟨d, ds, hd⟩ := List.exists_cons_of_ne_nil hw
  have hpos : 0 < w.length := List.length_pos_iff.mpr hw
  obtain ⟨fn, cur, tpos, paren, hex, oct⟩ := st
  cases fn with
  | main => simp only [parseCall]; exact callOkK_main _ pos w hw rfl
  | comment =>
    have := callOkK_search (tag := tag) (k := k) .comment isEol ⟨.comment, cur, tpos, paren, hex, oct⟩ pos w hw rfl rfl (fun _ => []) (fun _ => by simp) step_comment
      (fun st p c h hc => by simp [lexStep, h, stepComment, hc])
    simp only [parseCall, parseComment]; exact this
  | keyword =>
    have := callOkK_search (tag := tag) (k := k) .keyword isEndWord ⟨.keyword, cur, tpos, paren, hex, oct⟩ pos w hw rfl rfl (fun st => [(st.tpos, keywordTok st.cur)]) (fun _ => by simp)
      step_keyword (fun st p c h hc => by simp [lexStep, h, stepKeyword, hc])
    simp only [parseCall, parseKeyword]; exact this
  | hexstring =>
    have := callOkK_search (tag := tag) (k := k) .hexstring isEndHexString ⟨.hexstring, cur, tpos, paren, hex, oct⟩ pos w hw rfl rfl (fun st => [(st.tpos, hexTok st.cur)]) (fun _ => by simp)
      step_hexstring (fun st p c h hc => by simp [lexStep, h, stepHexstring, hc])
    simp only [parseCall, parseHexstring]; exact this
  | float =>
    have := callOkK_search (tag := tag) (k := k) .float (fun c => !isDigit c) ⟨.float, cur, tpos, paren, hex, oct⟩ pos w hw rfl rfl floatToks
      (fun st => by unfold floatToks; split <;> simp)
      step_float (fun st p c h hc => by simp at hc; simp [lexStep, h, stepFloat, hc])
    simp only [Bool.not_not] at this
    simp only [parseCall, parseFloat]; exact this
  | number =>
    simp only [parseCall, parseNumber]
    rcases search_split isDigit w with ⟨h1, h2⟩ | ⟨c, r, h1, h2, h3⟩
    · simp only [h1, CallOkK, Nat.le_refl, List.length_nil, Nat.zero_le, true_and]
      refine ⟨Or.inl hpos, fun rest => ?_⟩
      rw [lexRunK_collect .number (fun c => !isDigit c) step_number w _ pos rest rfl
        (fun c hc => by simpa using takeWhile_all isDigit w c (by rw [h2]; exact hc))]
      simp
    · simp only [h1]
      have hpre := lexRunK_collect (tag := tag) (k := k) .number (fun c => !isDigit c) step_number (w.takeWhile isDigit) ⟨.number, cur, tpos, paren, hex, oct⟩ pos
      have hall : ∀ c ∈ w.takeWhile isDigit, (fun c => !isDigit c) c = false :=
        fun c hc => by simpa using takeWhile_all isDigit w c hc
      split
      · rename_i hc
        refine ⟨split_len h1, by simp, Or.inl (by simp), fun rest => ?_⟩
        conv => lhs; rw [h3]
        rw [List.append_assoc, hpre _ rfl hall, List.cons_append,
          lexRunK_ok (st' := { LexSt.mk .number cur tpos paren hex oct with cur := cur ++ w.takeWhile isDigit ++ [c], fn := .float }) (toks := [])
            (by simp [lexStep, stepNumber, hc, show isDigit 46 = false by decide])]
        rw [show w.drop ((w.takeWhile isDigit).length + 1) = r by
          rw [← List.drop_drop, drop_takeWhile_length, h1]; rfl, Nat.add_assoc]
      · rename_i hc
        refine ⟨List.Sublist.length_le (List.takeWhile_sublist _), by split <;> simp,
          Or.inr (by simp [LexFn.rank]), fun rest => ?_⟩
        conv => lhs; rw [h3]
        rw [List.append_assoc, hpre _ rfl hall, List.cons_append,
          lexRunK_toMain (toks := intToks { LexSt.mk .number cur tpos paren hex oct with cur := cur ++ w.takeWhile isDigit })
            (by simp [lexStep, stepNumber, h2, hc]),
          drop_takeWhile_length, h1]
        rfl
  | literal =>
    simp only [parseCall, parseLiteral]
    rcases search_split (fun c => !isEndWord c) w with ⟨h1, h2⟩ | ⟨c, r, h1, h2, h3⟩
    · simp only [h1, CallOkK, Nat.le_refl, List.length_nil, Nat.zero_le, true_and]
      refine ⟨Or.inl hpos, fun rest => ?_⟩
      rw [lexRunK_collect .literal isEndWord step_literal w _ pos rest rfl
        (fun c hc => by simpa using takeWhile_all (fun c => !isEndWord c) w c (by rw [h2]; exact hc))]
      simp
    · simp only [h1]
      have hpre := lexRunK_collect (tag := tag) (k := k) .literal isEndWord step_literal (w.takeWhile (fun c => !isEndWord c)) ⟨.literal, cur, tpos, paren, hex, oct⟩ pos
      have hall : ∀ c ∈ w.takeWhile (fun c => !isEndWord c), isEndWord c = false :=
        fun c hc => by simpa using takeWhile_all (fun c => !isEndWord c) w c hc
      simp only [Bool.not_eq_false'] at h2
      split
      · rename_i hc
        refine ⟨split_len h1, by simp, Or.inl (by simp), fun rest => ?_⟩
        conv => lhs; rw [h3]
        rw [List.append_assoc, hpre _ rfl hall, List.cons_append,
          lexRunK_ok (st' := { LexSt.mk .literal cur tpos paren hex oct with cur := cur ++ w.takeWhile (fun c => !isEndWord c), hex := [], fn := .literalHex }) (toks := [])
            (by simp [lexStep, stepLiteral, hc, show isEndWord 35 = true by decide])]
        rw [show w.drop ((w.takeWhile (fun c => !isEndWord c)).length + 1) = r by
          rw [← List.drop_drop, drop_takeWhile_length, h1]; rfl, Nat.add_assoc]
      · rename_i hc
        refine ⟨List.Sublist.length_le (List.takeWhile_sublist _), by simp,
          Or.inr (by simp [LexFn.rank]), fun rest => ?_⟩
        conv => lhs; rw [h3]
        rw [List.append_assoc, hpre _ rfl hall, List.cons_append,
          lexRunK_toMain (toks := [(tpos, .lit (cur ++ w.takeWhile (fun c => !isEndWord c)))])
            (by simp [lexStep, stepLiteral, h2, hc]),
          drop_takeWhile_length, h1]
        rfl
  | string =>
    simp only [parseCall, parseString]
    rcases search_split (fun c => !isEndString c) w with ⟨h1, h2⟩ | ⟨c, r, h1, h2, h3⟩
    · simp only [h1, CallOkK, Nat.le_refl, List.length_nil, Nat.zero_le, true_and]
      refine ⟨Or.inl hpos, fun rest => ?_⟩
      rw [lexRunK_collect .string isEndString step_string w _ pos rest rfl
        (fun c hc => by simpa using takeWhile_all (fun c => !isEndString c) w c (by rw [h2]; exact hc))]
      simp
    · simp only [h1]
      have hpre := lexRunK_collect (tag := tag) (k := k) .string isEndString step_string (w.takeWhile (fun c => !isEndString c)) ⟨.string, cur, tpos, paren, hex, oct⟩ pos
      have hall : ∀ c ∈ w.takeWhile (fun c => !isEndString c), isEndString c = false :=
        fun c hc => by simpa using takeWhile_all (fun c => !isEndString c) w c hc
      simp only [Bool.not_eq_false'] at h2
      have hdrop : w.drop ((w.takeWhile (fun c => !isEndString c)).length + 1) = r := by
        rw [← List.drop_drop, drop_takeWhile_length, h1]; rfl
      have hstep : ∀ rest, lexRunK tag k ⟨.string, cur, tpos, paren, hex, oct⟩ pos (w ++ rest) =
          lexRunK tag k { LexSt.mk .string cur tpos paren hex oct with cur := cur ++ w.takeWhile (fun c => !isEndString c) }
            (pos + (w.takeWhile (fun c => !isEndString c)).length) (c :: (r ++ rest)) := by
        intro rest
        conv => lhs; rw [h3]
        rw [List.append_assoc, hpre _ rfl hall, List.cons_append]
      have hn : (w.takeWhile (fun c => !isEndString c)).length + 1 ≤ w.length := by
        conv => rhs; rw [h3]
        simp
      repeat' split
      all_goals
        refine ⟨hn, by simp, Or.inl (by simp), fun rest => ?_⟩
        rw [hstep, hdrop, ← Nat.add_assoc]
        refine lexRunK_ok ?_ _
        clear hstep hdrop hn h3 h1 hpre hall hw hpos hd
        simp_all [lexStep, stepString]
  | literalHex =>
    subst hd
    simp only [parseCall, parseLiteralHex]
    split
    · rename_i hc
      refine ⟨by simp, by simp, Or.inl (by simp), fun rest => ?_⟩
      rw [List.cons_append, lexRunK_ok (st' := ⟨.literalHex, cur, tpos, paren, hex ++ [d], oct⟩) (toks := []) (by simp [lexStep, stepLiteralHex, hc])]
      rfl
    · rename_i hc
      split
      · rename_i hh
        refine ⟨by simp, by simp, Or.inr (by simp [LexFn.rank]), fun rest => ?_⟩
        simp only [List.cons_append, List.drop_zero, APre_nil, Nat.add_zero]
        rw [lexRunK, lexRunK]
        congr 1
        simp [lexStep, stepLiteralHex, hc, hh]
      · rename_i hh
        refine ⟨by simp, by simp, Or.inr (by simp [LexFn.rank]), fun rest => ?_⟩
        simp only [List.cons_append, List.drop_zero, APre_nil, Nat.add_zero]
        rw [lexRunK, lexRunK]
        congr 1
        simp [lexStep, stepLiteralHex, hc, hh]
  | string1 =>
    subst hd
    simp only [parseCall, parseString1]
    split
    · rename_i hc
      refine ⟨by simp, by simp, Or.inl (by simp), fun rest => ?_⟩
      rw [List.cons_append, lexRunK_ok (st' := ⟨.string1, cur, tpos, paren, hex, oct ++ [d]⟩) (toks := []) (by simp [lexStep, stepString1, hc])]
      rfl
    · rename_i hc
      split
      · rename_i ho
        split
        · rename_i hv
          refine ⟨by simp, by simp, Or.inr (by simp [LexFn.rank]), fun rest => ?_⟩
          simp only [List.cons_append, List.drop_zero, APre_nil, Nat.add_zero]
          rw [lexRunK, lexRunK]
          congr 1
          simp only [lexStep, stepString1]
          rw [if_neg hc, if_pos ho, if_pos hv]
        · rename_i hv
          intro rest
          rw [List.cons_append]
          exact lexRunK_err (by simp [lexStep, stepString1, hc, ho, hv]) _
      · rename_i ho
        split
        · rename_i e he
          refine ⟨by simp, by simp, Or.inl (by simp), fun rest => ?_⟩
          rw [List.cons_append]
          exact lexRunK_ok (by simp [lexStep, stepString1, hc, ho, he]) _
        · rename_i he
          refine ⟨by simp, by simp, Or.inl (by simp), fun rest => ?_⟩
          rw [List.cons_append]
          exact lexRunK_ok (by simp [lexStep, stepString1, hc, ho, he]) _
  | wopen =>
    subst hd
    simp only [parseCall, parseWopen]
    split
    · rename_i hc
      refine ⟨by simp, by simp, Or.inl (by simp), fun rest => ?_⟩
      rw [List.cons_append]
      exact lexRunK_ok (by simp [lexStep, stepWopen, hc]) _
    · rename_i hc
      refine ⟨by simp, by simp, Or.inr (by simp [LexFn.rank]), fun rest => ?_⟩
      simp only [List.cons_append, List.drop_zero, APre_nil, Nat.add_zero]
      rw [lexRunK, lexRunK]
      congr 1
      simp [lexStep, stepWopen, hc]
  | wclose =>
    subst hd
    simp only [parseCall, parseWclose]
    split
    · rename_i hc
      refine ⟨by simp, by simp, Or.inl (by simp), fun rest => ?_⟩
      rw [List.cons_append]
      exact lexRunK_ok (by simp [lexStep, stepWclose, hc]) _
    · rename_i hc
      refine ⟨by simp, by simp, Or.inr (by simp [LexFn.rank]), fun rest => ?_⟩
      simp only [List.cons_append, List.drop_zero, Nat.add_zero]
      exact lexRunK_toMain (by simp [lexStep, stepWclose, hc]) _

end Pdf

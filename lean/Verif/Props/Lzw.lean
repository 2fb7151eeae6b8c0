import Verif.Proofs.Lzw
/-! Property C04. -/

namespace Pdf.Props
open Pdf Pdf.Spec

/-- **C04.** Whatever phrases and clear codes an LZW encoder chooses (`LzwBody`), the bytes holding
its bits (padded to a byte boundary with any bits) decode to the data. -/
theorem lzw_roundtrip (data bytes : Bytes) (bits pad : List Bool) (h : LzwBody data bits)
    (hb : bytes.flatMap byteBits = bits ++ pad) (hpad : pad.length < 8) :
    lzwdecode bytes = .ok data := by
  obtain ⟨b, rfl, h⟩ := h
  unfold lzwdecode
  have hp : pend bytes 0 8 = natBits 256 9 ++ (b ++ pad) := by
    rw [← List.append_assoc, ← hb]; simp [pend, natBits]
  obtain ⟨f', r', b', p', h1, h2, h3, h4⟩ := lzwRun_step 256 (bytes.length + 1) bytes 0 8 LzwSt.init
    ⟨9, some lzwTable0, some []⟩ [] [] _ (by decide) hp (by decide) (by decide) (by simp [lzwFeed]) rfl (by omega)
  rw [h1, h.run r' b' p' _ _ f' pad rfl h2 h3 (by omega) h4]
  simp

theorem lzwBest_code (dict : List Bytes) (h : UInt8) (t : Bytes) :
    IsCode dict (lzwBest dict h t).1 (lzwBest dict h t).2 ∧
    ((lzwBest dict h t).1 <+: h :: t) ∧ (lzwBest dict h t).1 ≠ [] ∧ (lzwBest dict h t).2 < 258 + dict.length := by
  have gen : ∀ (l : List (Bytes × Nat)) (best : Bytes × Nat),
      (∀ e ∈ l, dict[e.2]? = some e.1) →
      (IsCode dict best.1 best.2 ∧ best.1 <+: h :: t ∧ best.1 ≠ [] ∧ best.2 < 258 + dict.length) →
      let r := l.foldl (fun best e =>
        if e.1.isPrefixOf (h :: t) && decide (best.1.length < e.1.length) then (e.1, 258 + e.2) else best) best
      IsCode dict r.1 r.2 ∧ r.1 <+: h :: t ∧ r.1 ≠ [] ∧ r.2 < 258 + dict.length := by
    intro l
    induction l with
    | nil => intro best _ hb; exact hb
    | cons e es ih =>
      intro best hl hb
      rw [List.foldl_cons]
      apply ih _ (fun e he => hl e (List.mem_cons_of_mem _ he))
      have he := hl e List.mem_cons_self
      split
      · rename_i hc
        simp only [Bool.and_eq_true, List.isPrefixOf_iff_prefix, decide_eq_true_eq] at hc
        refine ⟨Or.inr ⟨by simp, by simpa using he⟩, hc.1, ?_, ?_⟩
        · intro e0; simp only at e0; rw [e0] at hc; simp at hc
        · have : e.2 < dict.length := by rw [List.getElem?_eq_some_iff] at he; exact he.1
          simp only; omega
      · exact hb
  apply gen
  · intro e he
    rw [List.mem_zipIdx_iff_getElem?] at he
    simpa using he
  · have := h.toNat_lt
    exact ⟨Or.inl ⟨h, rfl, rfl⟩, ⟨t, rfl⟩, by simp, by simp only; omega⟩

theorem lzwGreedy_spec (fuel : Nat) (st : Option (List Bytes × Bytes)) (data : Bytes)
    (hf : 2 * data.length + (if st.isNone then 0 else 1) < fuel) : LzwEnc st data (lzwGreedy fuel st data) := by
  induction fuel generalizing st data with
  | zero => omega
  | succ fuel ih =>
    match st, data with
    | st, [] =>
      have : lzwGreedy (fuel + 1) st [] = natBits 257 (codeWidth (st.elim 0 (fun s => s.1.length + 1))) := by
        cases st <;> rfl
      rw [this]; exact .eod st
    | none, h :: t =>
      simp only [lzwGreedy]
      refine LzwEnc.first [h] h.toNat (Or.inl ⟨h, rfl, rfl⟩) (ih _ _ ?_)
      simp at hf ⊢; omega
    | some (dict, prev), h :: t =>
      simp only [lzwGreedy]
      split
      · refine LzwEnc.clear (some (dict, prev)) (ih _ _ ?_)
        simp at hf ⊢; omega
      · rename_i hlen
        obtain ⟨h1, ⟨r, hr⟩, h3, h4⟩ := lzwBest_code (dict ++ [prev ++ [h]]) h t
        generalize hbst : lzwBest (dict ++ [prev ++ [h]]) h t = bst at *
        have hhead : bst.1.head? = some h := by
          obtain ⟨a, as, e⟩ := List.exists_cons_of_ne_nil h3
          rw [e] at hr ⊢; simp at hr; simp [hr.1]
        have hd : (h :: t).drop bst.1.length = r := by rw [← hr, List.drop_left]
        have hbits : bst.2 < 2 ^ codeWidth (dict.length + 1) := by
          simp at h4 hlen
          unfold codeWidth
          repeat' split
          all_goals omega
        have := LzwEnc.next dict prev bst.1 h bst.2 hhead h1 hbits (ih (some (dict ++ [prev ++ [h]], bst.1)) r (by
          have := congrArg List.length hr
          have : 0 < bst.1.length := List.length_pos_iff.mpr h3
          simp at *; omega))
        rw [hr] at this
        rw [hd]; exact this

/-- The greedy encoder produces an `LzwBody`, so C04 covers every byte string. -/
theorem lzwEncode_spec (data : Bytes) : LzwBody data (lzwEncode data) :=
  ⟨_, rfl, lzwGreedy_spec _ _ _ (by simp)⟩

theorem packBits_spec (bits : List Bool) :
    ∃ pad, (packBits bits).flatMap byteBits = bits ++ pad ∧ pad.length < 8 := by
  have hval : ∀ l : List Bool, l.length = 8 →
      byteBits (UInt8.ofNat (l.foldl (fun v b => 2 * v + b.toNat) 0)) = l := by
    intro l hl
    match l, hl with
    | [a, b, c, d, e, f, g, h], _ =>
      revert a b c d e f g h
      decide
  fun_induction packBits bits with
  | case1 => exact ⟨[], by simp⟩
  | case2 a as b8 ih =>
    obtain ⟨pad, h1, h2⟩ := ih
    have hlen : b8.length = 8 := by simp [b8]
    rw [List.flatMap_cons, hval b8 hlen, h1]
    by_cases h7 : 7 ≤ as.length
    · refine ⟨pad, ?_, h2⟩
      have hb8 : b8 = (a :: as).take 8 := by
        simp only [b8]; rw [List.take_append_of_le_length (by simp; omega)]
      rw [hb8, ← List.append_assoc]
      have : as.drop 7 = (a :: as).drop 8 := rfl
      rw [this, List.take_append_drop]
    · have hdrop : as.drop 7 = [] := List.drop_eq_nil_of_le (by omega)
      rw [hdrop] at h1 ⊢
      have hpad : pad = [] := by
        rw [packBits] at h1; simpa using h1.symm
      subst hpad
      refine ⟨List.replicate (7 - as.length) false, ?_, by simp; omega⟩
      simp only [b8]
      rw [List.take_append, List.take_of_length_le (by simp; omega), List.take_replicate]
      simp

/-- **C04** for the greedy encoder: every byte string survives encoding and decoding. -/
theorem lzw_roundtrip_encode (data : Bytes) : lzwdecode (packBits (lzwEncode data)) = .ok data := by
  obtain ⟨pad, h1, h2⟩ := packBits_spec (lzwEncode data)
  exact lzw_roundtrip data _ _ pad (lzwEncode_spec data) h1 h2

/-- The decoder always terminates within the fuel: the artificial error is never the result. -/
theorem lzw_fuel_sufficient (data : Bytes) : lzwdecode data ≠ .error .recursion := by
  have feed_ok : ∀ s c s' x, lzwFeed s c = .ok (s', x) → 9 ≤ s.nbits → 9 ≤ s'.nbits := by
    intro s c s' x h hn
    have hw : ∀ l, 9 ≤ lzwWidth s.nbits l := by
      intro l; unfold lzwWidth; repeat' split
      all_goals omega
    unfold lzwFeed at h
    split at h
    · cases h; simp
    split at h
    · cases h; exact hn
    split at h
    · simp only [bind, Except.bind] at h; split at h <;> cases h; exact hn
    · simp only [bind, Except.bind] at h; split at h <;> cases h; exact hn
    · split at h
      · cases h
      · split at h
        · simp only [bind, Except.bind] at h; split at h <;> cases h; exact hw _
        · split at h <;> cases h; exact hw _
  have feed_err : ∀ s c, lzwFeed s c ≠ .error .recursion := by
    intro s c h
    have hat : ∀ t i, lzwAt t i ≠ .error .recursion := by
      intro t i h; unfold lzwAt at h; split at h
      · cases h
      · split at h <;> cases h
    unfold lzwFeed at h
    split at h
    · cases h
    split at h
    · cases h
    split at h
    · simp only [bind, Except.bind] at h; split at h
      · rename_i e he; cases h; exact hat _ _ he
      · cases h
    · simp only [bind, Except.bind] at h; split at h
      · rename_i e he; cases h; exact hat _ _ he
      · cases h
    · split at h
      · cases h
      · split at h
        · simp only [bind, Except.bind] at h; split at h
          · rename_i e he; cases h; exact hat _ _ he
          · cases h
        · split at h <;> cases h
  have run : ∀ fuel rest buff bpos s out, rest.length < fuel → bpos ≤ 8 → 9 ≤ s.nbits →
      lzwRun fuel rest buff bpos s out ≠ .error .recursion := by
    intro fuel
    induction fuel with
    | zero => intro rest _ _ _ _ h; omega
    | succ fuel ih =>
      intro rest buff bpos s out hf hb hn
      rw [lzwRun]
      by_cases hlen : (pend rest buff bpos).length < s.nbits
      · rw [lzwReadBits_eof _ _ _ _ _ hb hlen]; simp
      · obtain ⟨r', b', p', h1, h2, h3, h4⟩ := lzwReadBits_spec rest buff bpos s.nbits 0
          ((pend rest buff bpos).take s.nbits) ((pend rest buff bpos).drop s.nbits) hb (by simp)
          (by simp; omega)
        rw [h1]
        dsimp only
        split
        · simp
        · rename_i e he hfe
          intro h
          cases h
          exact feed_err _ _ hfe
        · rename_i s' x hfe
          split
          · simp
          · exact ih _ _ _ _ _ (by have := h4 (by omega); omega) h2 (feed_ok _ _ _ _ hfe hn)
  exact run _ _ _ _ _ _ (by omega) (by decide) (by decide)

/-- Limit of the implementation: the end-of-data code does not end decoding. The bytes
`80 0B 60 50 22 0C 0C 85 01` of the PDF Reference decode to `45 45 45 45 45 65 45 45 45 66`; one more line feed
and NUL after them change the result. -/
theorem lzw_after_eod_counterexample :
    lzwdecode [0x80, 0x0b, 0x60, 0x50, 0x22, 0x0c, 0x0c, 0x85, 0x01] = .ok [45, 45, 45, 45, 45, 65, 45, 45, 45, 66] ∧
    lzwdecode [0x80, 0x0b, 0x60, 0x50, 0x22, 0x0c, 0x0c, 0x85, 0x01, 0x0a, 0x00] ≠
      .ok [45, 45, 45, 45, 45, 65, 45, 45, 45, 66] := by
  decide +kernel

example : lzwdecode (packBits (lzwEncode [1, 1, 1, 1])) = .ok [1, 1, 1, 1] := lzw_roundtrip_encode _

end Pdf.Props

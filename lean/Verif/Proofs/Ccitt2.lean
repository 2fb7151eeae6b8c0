import Verif.Proofs.Ccitt
/-! One row of the Group 4 decoder. -/

namespace Pdf
open Spec

/-! ### Filling pixels -/

theorem pySetBit_nat (l : List Bool) (x : Nat) (c : Bool) (h : x < l.length) : pySetBit l x c = .ok (l.set x c) := by
  rw [pySetBit, if_pos ⟨by omega, by omega⟩]
  simp

theorem fillLine_spec (c : Bool) (n x : Nat) (l : List Bool) (h : x + n ≤ l.length) :
    ∃ l', fillLine c n x l = .ok l' ∧ l'.length = l.length ∧
      ∀ i, l'.getD i true = if x ≤ i ∧ i < x + n then c else l.getD i true := by
  induction n generalizing x l with
  | zero => exact ⟨l, rfl, rfl, fun i => by rw [if_neg (by omega)]⟩
  | succ n ih =>
    obtain ⟨l', h1, h2, h3⟩ := ih (x + 1) (l.set x c) (by simp; omega)
    refine ⟨l', ?_, by simpa using h2, fun i => ?_⟩
    · rw [fillLine, pySetBit_nat l x c (by omega)]
      simp only
      rw [show ((x : Int) + 1) = ((x + 1 : Nat) : Int) by push_cast; rfl]
      exact h1
    · rw [h3]
      by_cases hx : i = x
      · subst hx
        rw [if_neg (by omega), if_pos (by omega)]
        simp [List.getElem?_set_self (show i < l.length by omega)]
      · by_cases hh : x + 1 ≤ i ∧ i < x + 1 + n
        · rw [if_pos hh, if_pos (by omega)]
        · rw [if_neg hh, if_neg (by omega)]
          simp [List.getElem?_set_ne (show x ≠ i from fun h => hx h.symm)]

theorem runLoop_spec (c : Bool) (n x : Nat) (l : List Bool) (h : x + n ≤ l.length) :
    ∃ l', runLoop c n l x = (l', x + n) ∧ l'.length = l.length ∧
      ∀ i, l'.getD i true = if x ≤ i ∧ i < x + n then c else l.getD i true := by
  induction n generalizing x l with
  | zero => exact ⟨l, rfl, rfl, fun i => by rw [if_neg (by omega)]⟩
  | succ n ih =>
    obtain ⟨l', h1, h2, h3⟩ := ih (x + 1) (l.set x c) (by simp; omega)
    refine ⟨l', ?_, by simpa using h2, fun i => ?_⟩
    · rw [runLoop, if_neg (by omega), h1]
      congr 1; omega
    · rw [h3]
      by_cases hx : i = x
      · subst hx
        rw [if_neg (by omega), if_pos (by omega)]
        simp [List.getElem?_set_self (show i < l.length by omega)]
      · by_cases hh : x + 1 ≤ i ∧ i < x + 1 + n
        · rw [if_pos hh, if_pos (by omega)]
        · rw [if_neg hh, if_neg (by omega)]
          simp [List.getElem?_set_ne (show x ≠ i from fun h => hx h.symm)]

/-! ### The state within a row -/

/-- The decoder has produced the row up to `a0`; `st` is left open. -/
structure InRow (s : G4) (ref row : List Bool) (a0 : Int) : Prop where
  width : s.width = row.length
  nonempty : 0 < row.length
  reflen : ref.length = row.length
  len : s.curline.length = row.length
  ref : s.refline = ref
  pos : s.curpos = a0
  low : -1 ≤ a0
  high : a0 ≤ row.length
  colour : a0 < row.length → s.color = colourAt row a0
  done : ∀ i : Nat, (i : Int) < a0 → s.curline.getD i true = row.getD i true

theorem InRow.withSt {s ref row a0} (h : InRow s ref row a0) (st : G4State) : InRow { s with st := st } ref row a0 :=
  ⟨h.width, h.nonempty, h.reflen, h.len, h.ref, h.pos, h.low, h.high, h.colour, h.done⟩

theorem InRow.b1 {s ref row a0} (h : InRow s ref row a0) (hw : a0 < row.length) (b1 : Nat) (hb : IsB1 ref row a0 b1) :
    findB1 s.refline s.color (s.refline.length + 2) (s.curpos + 1).toNat = .ok b1 := by
  have hlow := h.low
  have hr := h.reflen
  have hne := h.nonempty
  rw [h.ref, h.pos, h.colour hw]
  obtain ⟨j, h1, h2, h3⟩ := findB1_spec ref (colourAt row a0) (ref.length + 2) (a0 + 1).toNat (by omega) (by
    intro h0
    have : a0 = -1 := by omega
    subst this
    exact ⟨by simp [colourAt], by omega⟩) (by omega)
  rw [show (((a0 + 1).toNat : Nat) : Int) - 1 = a0 by omega] at h2
  rw [h1, FirstRight.unique h2 hb]

theorem InRow.b2 {s ref row a0} (h : InRow s ref row a0) (hw : a0 < row.length) (b1 b2 : Nat) (hb : IsB1 ref row a0 b1)
    (hb2 : IsB2 ref b1 b2) : findB2 s.refline s.color (s.refline.length + 2) b1 = .ok b2 := by
  have hlow := h.low
  have hr := h.reflen
  have hne := h.nonempty
  have hle := FirstRight.le hb
  rw [h.ref, h.colour hw]
  obtain ⟨j, h1, h2, h3⟩ := findB2_spec ref (colourAt row a0) (ref.length + 2) b1 (by omega) (by omega) (by
    intro h0
    subst h0
    rcases hb.2 with ⟨hlt, -, hch⟩ | hh
    · have : a0 = -1 := by omega
      subst this
      simp [colourAt]
    · omega) (by omega)
  rw [h1]
  congr 1
  rcases hb.2 with ⟨hlt, hlt', hch, hco⟩ | hh
  · -- `b1` itself is of the other colour; the next changing element is of the colour of `a0`
    refine FirstRight.unique (P := fun i => Changing ref i ∧ colourAt ref i = colourAt row a0) (lo := (b1 : Int) - 1) h2 ?_
    have hcol : ∀ i : Nat, b1 ≤ i → i < b2 → colourAt ref i = colourAt ref b1 := by
      intro i hi hi2
      have := isA_run (row := ref) (a0 := b1) (a1 := b2) hb2 (by omega) i (by omega) hi2
      rw [colourAt_nat, this]
    refine ⟨fun i hi hij hP => ?_, ?_⟩
    · have := hcol i (by omega) hij
      exact hco (by rw [← this]; exact hP.2)
    · rcases hb2.2 with ⟨g1, g2, g3⟩ | g
      · refine Or.inl ⟨by omega, g2, g3, ?_⟩
        have := isA_colour (row := ref) (a0 := b1) (a1 := b2) hb2 (by omega) g2
        rw [this]
        revert hco
        generalize colourAt ref b1 = u
        generalize colourAt row a0 = v
        cases u <;> cases v <;> simp
      · exact Or.inr g
  · have e1 : j = ref.length := by
      rcases h2.2 with ⟨g1, g2, -⟩ | g <;> omega
    have e2 : b2 = ref.length := by
      rcases hb2.2 with ⟨g1, g2, -⟩ | g <;> omega
    omega

theorem vertical_step {s ref row a0} (h : InRow s ref row a0) (hw : a0 < row.length) {a1 b1 : Nat} {d : Int} (ha : IsA row a0 a1)
    (hb : IsB1 ref row a0 b1) (hd : (a1 : Int) = b1 + d) :
    ∃ s', s.doVertical d = .ok s' ∧ InRow s' ref row a1 ∧ s'.bytealign = s.bytealign ∧ s'.reversed = s.reversed ∧ s'.buf = s.buf := by
  have hlow := h.low
  have hle := FirstRight.le ha
  have hlt : a0 < a1 := by
    rcases ha.2 with ⟨g, -⟩ | g <;> omega
  have hlen := h.len
  have hx1 : max 0 (min s.width ((b1 : Int) + d)) = a1 := by rw [h.width, ← hd]; omega
  obtain ⟨l', h1, h2, h3⟩ := fillLine_spec s.color (a1 - (max a0 0).toNat) (max a0 0).toNat s.curline (by omega)
  refine ⟨{ s with curline := l', curpos := a1, color := !s.color }, ?_, ?_, rfl, rfl, rfl⟩
  · rw [G4.doVertical, h.b1 hw b1 hb]
    simp only [hx1, h.pos]
    rw [if_neg (by omega)]
    have e1 : ((a1 : Int) - max 0 a0).toNat = a1 - (max a0 0).toNat := by omega
    have e2 : max 0 a0 = ((max a0 0).toNat : Nat) := by omega
    rw [e1, e2, h1]
  · refine ⟨h.width, h.nonempty, h.reflen, h2.trans hlen, h.ref, rfl, by omega, by omega, fun hh => ?_, fun i hi => ?_⟩
    · show (!s.color) = _
      rw [h.colour hw, isA_colour ha hlow (by omega)]
    · show l'.getD i true = _
      rw [h3]
      by_cases hi0 : (max a0 0).toNat ≤ i
      · rw [if_pos (by omega), h.colour hw, isA_run ha hlow i (by omega) (by omega)]
      · rw [if_neg (by omega), h.done i (by omega)]

theorem pass_step {s ref row a0} (h : InRow s ref row a0) (hw : a0 < row.length) {a1 b1 b2 : Nat} (ha : IsA row a0 a1)
    (hb : IsB1 ref row a0 b1) (hb2 : IsB2 ref b1 b2) (hlt : b2 < a1) :
    ∃ s', s.doPass = .ok s' ∧ InRow s' ref row b2 ∧ s'.bytealign = s.bytealign ∧ s'.reversed = s.reversed ∧ s'.buf = s.buf := by
  have hlow := h.low
  have hle := FirstRight.le ha
  have hr := h.reflen
  have hne := h.nonempty
  have hlen := h.len
  have hb12 : b1 < b2 := by
    rcases hb2.2 with ⟨g, -⟩ | g <;> omega
  have hb1 : a0 < b1 := by
    rcases hb.2 with ⟨g, -⟩ | g <;> omega
  -- the pixels are set from `a0` on, or from the last one and then from the first one on
  have hfill : ∃ l', fillLine s.color ((b2 : Int) - a0).toNat a0 s.curline = .ok l' ∧ l'.length = row.length ∧
      ∀ i : Nat, i < b2 → l'.getD i true = row.getD i true := by
    by_cases h0 : a0 = -1
    · subst h0
      obtain ⟨l', h1, h2, h3⟩ := fillLine_spec s.color b2 0 (s.curline.set (row.length - 1) s.color) (by simp; omega)
      refine ⟨l', ?_, by rw [h2]; simpa using hlen, fun i hi => ?_⟩
      · rw [show ((b2 : Int) - -1).toNat = b2 + 1 by omega, fillLine, pySetBit, if_neg (by omega), if_pos (by omega)]
        simp only
        rw [show (-1 + (s.curline.length : Int)).toNat = row.length - 1 by omega]
        exact h1
      · rw [h3, if_pos (by omega), h.colour hw, isA_run ha hlow i (by omega) (by omega)]
    · obtain ⟨k, rfl⟩ : ∃ k : Nat, a0 = k := ⟨a0.toNat, by omega⟩
      obtain ⟨l', h1, h2, h3⟩ := fillLine_spec s.color (b2 - k) k s.curline (by omega)
      refine ⟨l', ?_, h2.trans hlen, fun i hi => ?_⟩
      · rw [show ((b2 : Int) - k).toNat = b2 - k by omega]; exact h1
      · rw [h3]
        by_cases hi0 : k ≤ i
        · rw [if_pos (by omega), h.colour hw, isA_run ha hlow i (by omega) (by omega)]
        · rw [if_neg (by omega), h.done i (by omega)]
  obtain ⟨l', h1, h2, h3⟩ := hfill
  refine ⟨{ s with curline := l', curpos := b2 }, ?_, ?_, rfl, rfl, rfl⟩
  · rw [G4.doPass, h.b1 hw b1 hb]
    simp only
    rw [h.b2 hw b1 b2 hb hb2]
    simp only [h.pos]
    rw [h1]
  · refine ⟨h.width, h.nonempty, h.reflen, h2, h.ref, rfl, by omega, by omega, fun hh => ?_, fun i hi => h3 i (by omega)⟩
    show s.color = _
    rw [h.colour hw, colourAt_nat, isA_run ha hlow b2 (by omega) hlt]

theorem horizontal_step {s ref row a0} (h : InRow s ref row a0) (hw : a0 < row.length) {a1 a2 : Nat} (ha : IsA row a0 a1)
    (ha2 : IsA row a1 a2) (s0 : G4) (hs0 : s0 = { s with st := s0.st, n1 := a1 - (max a0 0).toNat, n2 := a2 - a1 }) :
    InRow s0.doHorizontal ref row a2 ∧ s0.doHorizontal.bytealign = s.bytealign ∧ s0.doHorizontal.reversed = s.reversed ∧
      s0.doHorizontal.buf = s.buf := by
  have hlow := h.low
  have hle := FirstRight.le ha
  have hle2 := FirstRight.le ha2
  have hlen := h.len
  have hlt : a0 < a1 := by
    rcases ha.2 with ⟨g, -⟩ | g <;> omega
  have hlt2 : a1 ≤ a2 := by
    rcases ha2.2 with ⟨g, -⟩ | g <;> omega
  obtain ⟨l1, h1, h2, h3⟩ := runLoop_spec s.color (a1 - (max a0 0).toNat) (max a0 0).toNat s.curline (by omega)
  obtain ⟨l2, g1, g2, g3⟩ := runLoop_spec (!s.color) (a2 - a1) a1 l1 (by omega)
  have hd : s0.doHorizontal = { s0 with curline := l2, curpos := (a2 : Nat) } := by
    have e1 : s0.color = s.color := by rw [hs0]
    have e2 : s0.n1 = a1 - (max a0 0).toNat := by rw [hs0]
    have e3 : s0.n2 = a2 - a1 := by rw [hs0]
    have e4 : s0.curline = s.curline := by rw [hs0]
    have e5 : s0.curpos = a0 := by rw [hs0]; exact h.pos
    rw [G4.doHorizontal, e1, e2, e3, e4, e5, show a0.toNat = (max a0 0).toNat by omega, h1,
      show (max a0 0).toNat + (a1 - (max a0 0).toNat) = a1 by omega]
    simp only
    rw [g1, show a1 + (a2 - a1) = a2 by omega]
  rw [hd]
  have f1 : s0.width = s.width := by rw [hs0]
  have f2 : s0.refline = s.refline := by rw [hs0]
  have f3 : s0.color = s.color := by rw [hs0]
  refine ⟨⟨f1.trans h.width, h.nonempty, h.reflen, g2.trans (h2.trans hlen), f2.trans h.ref, rfl, by omega, by omega, fun hh => ?_, fun i hi => ?_⟩,
    by rw [hs0], by rw [hs0], by rw [hs0]⟩
  · show s0.color = _
    rw [f3, h.colour hw]
    have := isA_colour ha2 (by omega) (by omega)
    rw [this, isA_colour ha hlow (by omega), Bool.not_not]
  · show l2.getD i true = _
    rw [g3]
    by_cases hi1 : a1 ≤ i
    · rw [if_pos (by omega), h.colour hw, isA_run ha2 (by omega) i (by omega) (by omega), isA_colour ha hlow (by omega)]
    · rw [if_neg (by omega), h3]
      by_cases hi0 : (max a0 0).toNat ≤ i
      · rw [if_pos (by omega), h.colour hw, isA_run ha hlow i (by omega) (by omega)]
      · rw [if_neg (by omega), h.done i (by omega)]

/-! ### Run lengths -/

theorem run1_feeds (c : Bool) (n : Nat) (bits : List Bool) (h : RunCode c n bits) (s : G4) (t : Trie Nat) (hs : s.st = .horiz1 t)
    (ht : t = runTable c) (hc : s.color = c) :
    Feeds bits s (.ok { s with n1 := s.n1 + n, n2 := 0, color := !c, st := .horiz2 (runTable (!c)) }) := by
  subst ht
  induction h generalizing s with
  | terminating hm hlt =>
    obtain ⟨t', h⟩ := feeds_horiz1 s _ _ _ hs (run_lookup _ hm)
    simp only [G4.parseHoriz1, hlt, if_true] at h
    subst hc
    exact h
  | @makeUp len code run n bits hm hge hr ih =>
    obtain ⟨t', h⟩ := feeds_horiz1 s _ _ _ hs (run_lookup _ hm)
    simp only [G4.parseHoriz1, show ¬ run < 64 by omega, if_false] at h
    have h2 := h.append (ih { s with n1 := s.n1 + run, st := .horiz1 (runTable s.color) } hc (by subst hc; rfl))
    simp only [Nat.add_assoc] at h2
    exact h2

theorem run2_feeds (c : Bool) (n : Nat) (bits : List Bool) (h : RunCode c n bits) (s : G4) (t : Trie Nat) (hs : s.st = .horiz2 t)
    (ht : t = runTable c) (hc : s.color = c) :
    ∃ t', Feeds bits s (G4Res.next (.mode modeTable)
      (G4.doHorizontal { s with n2 := s.n2 + n, color := !c, st := .horiz2 t' }).flushLine) := by
  subst ht
  induction h generalizing s with
  | terminating hm hlt =>
    obtain ⟨t', h⟩ := feeds_horiz2 s _ _ _ hs (run_lookup _ hm)
    simp only [G4.parseHoriz2, hlt, if_true] at h
    subst hc
    exact ⟨t', h⟩
  | @makeUp len code run n bits hm hge hr ih =>
    obtain ⟨t', h⟩ := feeds_horiz2 s _ _ _ hs (run_lookup _ hm)
    simp only [G4.parseHoriz2, show ¬ run < 64 by omega, if_false] at h
    obtain ⟨t2, h2⟩ := ih { s with n2 := s.n2 + run, st := .horiz2 (runTable s.color) } hc (by subst hc; rfl)
    have h3 := h.append h2
    simp only [Nat.add_assoc] at h3
    exact ⟨t2, h3⟩

/-! ### A whole row -/

/-- The result once the row is complete. -/
def RowDone (s : G4) (row : List Bool) (r : G4Res) : Prop :=
  ∃ s2 : G4, s2.width = row.length ∧ s2.refline = row ∧ s2.curline = List.replicate row.length true ∧ s2.curpos = -1 ∧
    s2.color = true ∧ s2.bytealign = s.bytealign ∧ s2.reversed = s.reversed ∧
    s2.buf = s.buf ++ packLine ((row.length + 7) / 8) (if s.reversed then row.map not else row) ∧
    r = if s.bytealign then .byteSkip s2 else .ok { s2 with st := .mode modeTable }

theorem flush_going {s ref row a0} (h : InRow s ref row a0) (hw : a0 < row.length) :
    s.flushLine.next (.mode modeTable) = .ok { s with st := .mode modeTable } := by
  rw [G4.flushLine, if_neg (by rw [h.width, h.pos]; omega)]
  rfl

theorem flush_done {s ref row} (h : InRow s ref row row.length) : RowDone s row (s.flushLine.next (.mode modeTable)) := by
  have hrow : s.curline = row := by
    apply List.ext_getElem? 
    intro i
    by_cases hi : i < row.length
    · have := h.done i (by omega)
      rw [List.getD_eq_getElem?_getD, List.getD_eq_getElem?_getD] at this
      rw [List.getElem?_eq_getElem hi, List.getElem?_eq_getElem (by rw [h.len]; exact hi)] at this ⊢
      simpa using this
    · have := h.len
      rw [List.getElem?_eq_none (by omega), List.getElem?_eq_none (by omega)]
  rw [G4.flushLine, if_pos (by rw [h.width, h.pos]; omega)]
  have hlen : (if s.reversed then s.curline.map not else s.curline).length = row.length := by
    split_ifs <;> simp [h.len]
  refine ⟨G4.resetLine { s with buf := s.buf ++ packLine ((row.length + 7) / 8) (if s.reversed then row.map not else row) },
    h.width, hrow, ?_, rfl, rfl, rfl, rfl, rfl, ?_⟩
  · simp [G4.resetLine, h.width]
  · simp only [hlen]
    cases hb : s.bytealign <;> simp [G4.resetLine, hb, G4Res.next, hrow]

/-- The code of the rest of a row leads to the complete row. -/
theorem row_feeds {ref row a0 bits} (hc : RowCode ref row a0 bits) (s : G4) (h : InRow s ref row a0) (hw : a0 < row.length)
    (hst : s.st = .mode modeTable) : ∃ r, Feeds bits s r ∧ RowDone s row r := by
  -- after one code, the row is complete or goes on
  have glue : ∀ (s : G4) (s' : G4) (code rest : List Bool) (p : Int), InRow s' ref row p → s'.bytealign = s.bytealign →
      s'.reversed = s.reversed → s'.buf = s.buf → RowCode ref row p rest →
      (∀ s : G4, InRow s ref row p → p < row.length → s.st = .mode modeTable → ∃ r, Feeds rest s r ∧ RowDone s row r) →
      Feeds code s (s'.flushLine.next (.mode modeTable)) → ∃ r, Feeds (code ++ rest) s r ∧ RowDone s row r := by
    intro s s' code rest p hp ha hr hb hrest ih hf
    by_cases hpw : p < row.length
    · rw [flush_going hp hpw] at hf
      obtain ⟨r, h1, h2⟩ := ih { s' with st := .mode modeTable }
        ⟨hp.width, hp.nonempty, hp.reflen, hp.len, hp.ref, hp.pos, hp.low, hp.high, hp.colour, hp.done⟩ hpw rfl
      refine ⟨r, hf.append h1, ?_⟩
      obtain ⟨s2, g1, g2, g3, g4, g5, g6, g7, g8, g9⟩ := h2
      refine ⟨s2, g1, g2, g3, g4, g5, ?_, ?_, ?_, ?_⟩
      · exact g6.trans ha
      · exact g7.trans hr
      · simpa only [hb, hr] using g8
      · simpa only [ha] using g9
    · have hpe : p = row.length := by have := hp.high; omega
      subst hpe
      have hnil : rest = [] := by
        cases hrest with
        | finished => rfl
        | pass h => omega
        | vertical h => omega
        | horizontal h => omega
      subst hnil
      have hd := flush_done hp
      refine ⟨_, by simpa using hf, ?_⟩
      obtain ⟨s2, g1, g2, g3, g4, g5, g6, g7, g8, g9⟩ := hd
      refine ⟨s2, g1, g2, g3, g4, g5, g6.trans ha, g7.trans hr, ?_, ?_⟩
      · simpa only [hb, hr] using g8
      · rw [← ha]; exact g9
  induction hc generalizing s with
  | finished => omega
  | @pass a0 a1 b1 b2 bits hlt ha hb hb2 hp hrest ih =>
    obtain ⟨t', hf⟩ := feeds_mode s _ _ _ hst pass_lookup
    obtain ⟨s', h1, h2, h3, h4, h5⟩ := pass_step (h.withSt (.mode t')) hw ha hb hb2 hp
    simp only [G4.parseMode, h1] at hf
    exact glue s s' _ _ _ h2 h3 h4 h5 hrest ih hf
  | @vertical a0 d a1 b1 len code bits hlt ha hb hd hm hrest ih =>
    obtain ⟨t', hf⟩ := feeds_mode s _ _ _ hst (vertical_lookup _ hm)
    obtain ⟨s', h1, h2, h3, h4, h5⟩ := vertical_step (h.withSt (.mode t')) hw ha hb hd
    simp only [G4.parseMode, h1] at hf
    exact glue s s' _ _ _ h2 h3 h4 h5 hrest ih hf
  | @horizontal a0 a1 a2 r1 r2 bits hlt ha ha2 hr1 hr2 hrest ih =>
    obtain ⟨t', hf⟩ := feeds_mode s _ _ _ hst horiz_lookup
    simp only [G4.parseMode] at hf
    have hcol := h.colour hw
    have hf1 := run1_feeds _ _ _ hr1 { s with n1 := 0, st := .horiz1 (runTable s.color) } _ rfl (by rw [hcol]) hcol
    obtain ⟨t2, hf2⟩ := run2_feeds _ _ _ hr2 { s with n1 := 0 + (a1 - (max a0 0).toNat), n2 := 0, color := !colourAt row a0, st := .horiz2 (runTable (!colourAt row a0)) } _ rfl rfl rfl
    have hstep := horizontal_step (s := s) h hw ha ha2
      { s with n1 := 0 + (a1 - (max a0 0).toNat), n2 := 0 + (a2 - a1), color := !!colourAt row a0, st := .horiz2 t2 } (by
        simp [← hcol])
    exact glue s _ _ _ _ hstep.1 hstep.2.1 hstep.2.2.1 hstep.2.2.2 hrest ih ((hf.append hf1).append hf2)

end Pdf

import Verif.Proofs.Ccitt3
import Mathlib.Data.Nat.Find
/-! Every image has a Group 4 code; the decoder on arbitrary data. -/

namespace Pdf
open Spec

/-! ### Existence of codes -/

theorem term_exists : ∀ c : Bool, ∀ n, n < 64 → ∃ e ∈ runCodes c, e.2.2 = n := by decide +kernel

theorem run64_exists : ∀ c : Bool, ∃ e ∈ runCodes c, e.2.2 = 64 := by decide +kernel

theorem runCode_exists (c : Bool) (n : Nat) : ∃ bits, RunCode c n bits := by
  induction n using Nat.strongRecOn with
  | _ n ih =>
    by_cases h : n < 64
    · obtain ⟨⟨len, code, run⟩, h1, h2⟩ := term_exists c n h
      simp only at h2
      subst h2
      exact ⟨_, RunCode.terminating h1 h⟩
    · obtain ⟨⟨len, code, run⟩, h1, h2⟩ := run64_exists c
      simp only at h2
      subst h2
      obtain ⟨b, hb⟩ := ih (n - 64) (by omega)
      have := RunCode.makeUp h1 (Nat.le_refl 64) hb
      rw [show 64 + (n - 64) = n by omega] at this
      exact ⟨_, this⟩

theorem firstRight_exists (P : Nat → Prop) (lo : Int) (w : Nat) (hlo : lo ≤ w) : ∃ j, FirstRight P lo w j := by
  classical
  by_cases h : ∃ j : Nat, lo < j ∧ j < w ∧ P j
  · refine ⟨Nat.find h, fun i h1 h2 hp => ?_, Or.inl (Nat.find_spec h)⟩
    have hw := (Nat.find_spec h).2.1
    exact Nat.find_min h h2 ⟨h1, by omega, hp⟩
  · refine ⟨w, fun i h1 h2 hp => h ⟨i, h1, h2, hp⟩, Or.inr rfl⟩

theorem rowCode_exists (ref row : List Bool) (k : Nat) (a0 : Int) (hk : row.length - a0 ≤ k) (h0 : -1 ≤ a0)
    (h1 : a0 ≤ row.length) : ∃ bits, RowCode ref row a0 bits := by
  induction k generalizing a0 with
  | zero =>
    have : a0 = row.length := by omega
    subst this
    exact ⟨[], .finished⟩
  | succ k ih =>
    by_cases h : a0 = row.length
    · subst h; exact ⟨[], .finished⟩
    · obtain ⟨a1, ha1⟩ := firstRight_exists (Changing row) a0 row.length h1
      have l1 := FirstRight.le ha1
      obtain ⟨a2, ha2⟩ := firstRight_exists (Changing row) a1 row.length (by omega)
      have l2 := FirstRight.le ha2
      have g1 : a0 < a1 := by rcases ha1.2 with ⟨g, -⟩ | g <;> omega
      have g2 : a1 ≤ a2 := by rcases ha2.2 with ⟨g, -⟩ | g <;> omega
      obtain ⟨r1, hr1⟩ := runCode_exists (colourAt row a0) (a1 - (max a0 0).toNat)
      obtain ⟨r2, hr2⟩ := runCode_exists (!colourAt row a0) (a2 - a1)
      obtain ⟨bits, hb⟩ := ih a2 (by omega) (by omega) (by omega)
      exact ⟨_, .horizontal (by omega) ha1 ha2 hr1 hr2 hb⟩

theorem group4_exists (align : Bool) (w : Nat) (hw : 0 < w) (rows : List (List Bool)) (hrows : ∀ r ∈ rows, r.length = w) :
    ∃ data, Group4 align w rows data := by
  have hcode : ∃ bits, if align then AlignedCode (List.replicate w true) rows bits else RowsCode (List.replicate w true) rows bits := by
    generalize List.replicate w true = ref
    induction rows generalizing ref with
    | nil => exact ⟨[], by cases align <;> simp <;> constructor⟩
    | cons row rows ih =>
      have hl := hrows row (by simp)
      obtain ⟨b, hb⟩ := rowCode_exists ref row (row.length + 1) (-1) (by omega) (by omega) (by omega)
      obtain ⟨bs, hbs⟩ := ih (fun r h => hrows r (by simp [h])) row
      cases align with
      | false => exact ⟨b ++ bs, .cons hb hbs⟩
      | true => exact ⟨b ++ List.replicate ((8 - b.length % 8) % 8) false ++ bs, .cons hb (by omega) (by omega) hbs⟩
  obtain ⟨bits, hb⟩ := hcode
  exact ⟨packLine ((bits.length + 7) / 8) bits, bits, List.replicate (8 * ((bits.length + 7) / 8) - bits.length) false, hb,
    packLine_bits _ _ (by omega), Or.inr ⟨_, by omega, rfl⟩⟩

/-! ### Arbitrary data -/

/-- What holds of the decoder at any time. -/
structure FaxSound (s : G4) (w : Nat) : Prop where
  width : s.width = w
  cur : s.curline.length = w
  ref : s.refline.length = w
  low : -1 ≤ s.curpos
  high : s.curpos < w
  buf : s.buf.length % ((w + 7) / 8) = 0

theorem FaxSound.withSt {s w} (h : FaxSound s w) (st : G4State) : FaxSound { s with st := st } w := ⟨h.width, h.cur, h.ref, h.low, h.high, h.buf⟩

/-- A result that is sound, or the exception for invalid data. -/
def SoundRes (w : Nat) : G4Res → Prop
  | .ok s => FaxSound s w
  | .byteSkip s => FaxSound s w
  | .eofb s => FaxSound s w
  | .err e => e = .ccittInvalid

theorem SoundRes.next {w r} (h : SoundRes w r) (st : G4State) : SoundRes w (r.next st) := by
  cases r with
  | ok s => exact FaxSound.withSt h st
  | byteSkip s => exact h
  | eofb s => exact h
  | err e => exact h

theorem packLine_length (n : Nat) (l : List Bool) : (packLine n l).length = n := by
  induction n generalizing l with
  | zero => rfl
  | succ n ih => simp [packLine, ih]

theorem flush_sound (s : G4) (w : Nat) (hw : 0 < w) (h1 : s.width = w) (h2 : s.curline.length = w) (h3 : s.refline.length = w)
    (h4 : -1 ≤ s.curpos) (h5 : s.curpos ≤ w) (h6 : s.buf.length % ((w + 7) / 8) = 0) : SoundRes w s.flushLine := by
  rw [G4.flushLine]
  by_cases h : s.width ≤ s.curpos
  · rw [if_pos h]
    have hlen : (if s.reversed then s.curline.map not else s.curline).length = w := by
      cases s.reversed <;> simp [h2]
    generalize (if s.reversed then s.curline.map not else s.curline) = bits at hlen
    have : FaxSound (G4.resetLine { s with buf := s.buf ++ packLine ((bits.length + 7) / 8) bits }) w := by
      refine ⟨h1, by simp [G4.resetLine, h1], h2, by simp [G4.resetLine], by simp [G4.resetLine]; omega, ?_⟩
      show (s.buf ++ _).length % _ = 0
      rw [List.length_append, packLine_length, hlen, Nat.add_mod_right]
      exact h6
    simp only
    split_ifs
    · exact this
    · exact this
  · rw [if_neg h]
    exact ⟨h1, h2, h3, h4, by omega, h6⟩

theorem getBit (l : List Bool) (i : Nat) (h : i < l.length) : l[i]? = some (l.getD i true) := by
  rw [List.getD_eq_getElem?_getD, List.getElem?_eq_getElem h]; rfl

theorem findB1_total (ref : List Bool) (c : Bool) (hl : 0 < ref.length) (fuel x : Nat) (hx : x ≤ ref.length)
    (hf : ref.length + 1 - x ≤ fuel) : ∃ j, findB1 ref c fuel x = .ok j ∧ j ≤ ref.length ∧ x ≤ j := by
  induction fuel generalizing x with
  | zero => omega
  | succ fuel ih =>
    have step : x < ref.length → ∃ j, findB1 ref c fuel (x + 1) = .ok j ∧ j ≤ ref.length ∧ x ≤ j := by
      intro h
      obtain ⟨j, h1, h2, h3⟩ := ih (x + 1) (by omega) (by omega)
      exact ⟨j, h1, h2, by omega⟩
    simp only [findB1]
    by_cases h0 : x = 0
    · subst h0
      simp only [if_true, getBit ref 0 hl]
      split_ifs
      · exact ⟨0, rfl, by omega, by omega⟩
      · exact step hl
      · exact step hl
    · rw [if_neg h0]
      by_cases hxl : x = ref.length
      · rw [if_pos hxl]; exact ⟨x, rfl, hx, Nat.le_refl x⟩
      · rw [if_neg hxl, getBit ref (x - 1) (by omega)]
        simp only [getBit ref x (by omega)]
        split_ifs
        · exact ⟨x, rfl, hx, Nat.le_refl x⟩
        · exact step (by omega)
        · exact step (by omega)

theorem findB2_total (ref : List Bool) (c : Bool) (hl : 0 < ref.length) (fuel x : Nat) (hx : x ≤ ref.length)
    (hf : ref.length + 1 - x ≤ fuel) : ∃ j, findB2 ref c fuel x = .ok j ∧ j ≤ ref.length ∧ x ≤ j := by
  induction fuel generalizing x with
  | zero => omega
  | succ fuel ih =>
    have step : x < ref.length → ∃ j, findB2 ref c fuel (x + 1) = .ok j ∧ j ≤ ref.length ∧ x ≤ j := by
      intro h
      obtain ⟨j, h1, h2, h3⟩ := ih (x + 1) (by omega) (by omega)
      exact ⟨j, h1, h2, by omega⟩
    simp only [findB2]
    by_cases h0 : x = 0
    · subst h0
      simp only [if_true, getBit ref 0 hl]
      split_ifs
      · exact step hl
      · exact ⟨0, rfl, by omega, by omega⟩
      · exact step hl
    · rw [if_neg h0]
      by_cases hxl : x = ref.length
      · rw [if_pos hxl]; exact ⟨x, rfl, hx, Nat.le_refl x⟩
      · rw [if_neg hxl, getBit ref (x - 1) (by omega)]
        simp only [getBit ref x (by omega)]
        split_ifs
        · exact ⟨x, rfl, hx, Nat.le_refl x⟩
        · exact step (by omega)
        · exact step (by omega)

theorem pySetBit_ok (l : List Bool) (x : Int) (c : Bool) (h1 : -(l.length : Int) ≤ x) (h2 : x < l.length) :
    ∃ l', pySetBit l x c = .ok l' ∧ l'.length = l.length := by
  rw [pySetBit]
  by_cases h : 0 ≤ x
  · rw [if_pos ⟨h, h2⟩]; exact ⟨_, rfl, by simp⟩
  · rw [if_neg (by omega), if_pos ⟨h1, by omega⟩]; exact ⟨_, rfl, by simp⟩

theorem fillLine_ok (c : Bool) (n : Nat) (x : Int) (l : List Bool) (h1 : -(l.length : Int) ≤ x) (h2 : x + n ≤ l.length) :
    ∃ l', fillLine c n x l = .ok l' ∧ l'.length = l.length := by
  induction n generalizing x l with
  | zero => exact ⟨l, rfl, rfl⟩
  | succ n ih =>
    obtain ⟨l1, g1, g2⟩ := pySetBit_ok l x c h1 (by omega)
    obtain ⟨l2, g3, g4⟩ := ih (x + 1) l1 (by omega) (by omega)
    exact ⟨l2, by rw [fillLine, g1]; exact g3, by omega⟩

theorem runLoop_bounds (c : Bool) (n : Nat) (l : List Bool) (x : Nat) (hx : x ≤ l.length) :
    (runLoop c n l x).1.length = l.length ∧ (runLoop c n l x).2 ≤ l.length := by
  induction n generalizing l x with
  | zero => exact ⟨rfl, hx⟩
  | succ n ih =>
    rw [runLoop]
    split_ifs with h
    · exact ⟨rfl, hx⟩
    · have := ih (l.set x c) (x + 1) (by simp; omega)
      simpa using this

theorem vertical_sound (s : G4) (w : Nat) (hw : 0 < w) (h : FaxSound s w) (dx : Int) : SoundRes w (s.parseMode (some (.vert dx))) := by
  obtain ⟨b1, h1, h2, h3⟩ := findB1_total s.refline s.color (by rw [h.ref]; exact hw) (s.refline.length + 2) (s.curpos + 1).toNat
    (by have := h.low; have := h.high; have := h.ref; omega) (by omega)
  have hw' := h.width
  have hcur := h.cur
  have hlow := h.low
  have hhigh := h.high
  have hfill : ∃ l', (if max 0 (min s.width ((b1 : Int) + dx)) < max 0 s.curpos
      then fillLine s.color (max 0 s.curpos - max 0 (min s.width ((b1 : Int) + dx))).toNat (max 0 (min s.width ((b1 : Int) + dx))) s.curline
      else fillLine s.color (max 0 (min s.width ((b1 : Int) + dx)) - max 0 s.curpos).toNat (max 0 s.curpos) s.curline) = .ok l' ∧
      l'.length = s.curline.length := by
    split_ifs
    · exact fillLine_ok _ _ _ _ (by omega) (by omega)
    · exact fillLine_ok _ _ _ _ (by omega) (by omega)
  obtain ⟨l', g1, g2⟩ := hfill
  simp only [G4.parseMode, G4.doVertical, h1, g1]
  refine SoundRes.next ?_ _
  refine flush_sound _ w hw h.width (g2.trans hcur) h.ref ?_ ?_ h.buf
  · show -1 ≤ max 0 (min s.width ((b1 : Int) + dx)); omega
  · show max 0 (min s.width ((b1 : Int) + dx)) ≤ w; omega

theorem pass_sound (s : G4) (w : Nat) (hw : 0 < w) (h : FaxSound s w) : SoundRes w (s.parseMode (some .pass)) := by
  have hcur := h.cur
  have hlow := h.low
  have hhigh := h.high
  have href := h.ref
  obtain ⟨b1, h1, h2, h3⟩ := findB1_total s.refline s.color (by omega) (s.refline.length + 2) (s.curpos + 1).toNat
    (by omega) (by omega)
  obtain ⟨b2, k1, k2, k3⟩ := findB2_total s.refline s.color (by omega) (s.refline.length + 2) b1 h2 (by omega)
  obtain ⟨l', g1, g2⟩ := fillLine_ok s.color ((b2 : Int) - s.curpos).toNat s.curpos s.curline (by omega) (by omega)
  simp only [G4.parseMode, G4.doPass, h1, k1, g1]
  refine SoundRes.next ?_ _
  refine flush_sound _ w hw h.width (g2.trans hcur) h.ref ?_ ?_ h.buf
  · show -1 ≤ (b2 : Int); omega
  · show (b2 : Int) ≤ w; omega

theorem horizontal_sound (s : G4) (w : Nat) (hw : 0 < w) (h : FaxSound s w) : SoundRes w s.doHorizontal.flushLine := by
  have hcur := h.cur
  have hlow := h.low
  have hhigh := h.high
  have b1 := runLoop_bounds s.color s.n1 s.curline s.curpos.toNat (by omega)
  have b2 := runLoop_bounds (!s.color) s.n2 (runLoop s.color s.n1 s.curline s.curpos.toNat).1
    (runLoop s.color s.n1 s.curline s.curpos.toNat).2 (by omega)
  refine flush_sound _ w hw h.width ?_ h.ref ?_ ?_ h.buf
  · show (runLoop (!s.color) s.n2 _ _).1.length = w; omega
  · show (-1 : Int) ≤ ((runLoop (!s.color) s.n2 _ _).2 : Nat); omega
  · show (((runLoop (!s.color) s.n2 _ _).2 : Nat) : Int) ≤ w; omega

theorem uncompressed_sound (bits : List Bool) (s : G4) (w : Nat) (hw : 0 < w) (h : FaxSound s w) :
    SoundRes w (G4.doUncompressed bits s) := by
  induction bits generalizing s with
  | nil => exact h
  | cons c bits ih =>
    have hcur := h.cur
    have hlow := h.low
    have hhigh := h.high
    obtain ⟨l', g1, g2⟩ := pySetBit_ok s.curline s.curpos c (by omega) (by omega)
    have := flush_sound { s with curline := l', curpos := s.curpos + 1 } w hw h.width (by simpa [hcur] using g2) h.ref
      (by show -1 ≤ s.curpos + 1; omega) (by show s.curpos + 1 ≤ w; omega) h.buf
    rw [G4.doUncompressed, g1]
    simp only
    generalize G4.flushLine { s with curline := l', curpos := s.curpos + 1 } = r at this
    cases r with
    | ok s' => exact ih s' this
    | byteSkip s' => exact this
    | eofb s' => exact this
    | err e => exact this

theorem parseBit_sound (s : G4) (w : Nat) (hw : 0 < w) (h : FaxSound s w) (x : Bool) : SoundRes w (s.parseBit x) := by
  rw [G4.parseBit]
  cases s.st with
  | mode t =>
    simp only
    cases t.step x with
    | node l r => exact h.withSt _
    | none => rfl
    | leaf v =>
      cases v with
      | vert dx => exact vertical_sound s w hw h dx
      | pass => exact pass_sound s w hw h
      | horiz => exact ⟨h.width, h.cur, h.ref, h.low, h.high, h.buf⟩
      | uncompressed => exact h.withSt _
      | ext => rfl
      | eofb => exact h
  | horiz1 t =>
    simp only
    cases t.step x with
    | node l r => exact h.withSt _
    | none => rfl
    | leaf v =>
      simp only [G4.parseHoriz1]
      split_ifs
      · exact ⟨h.width, h.cur, h.ref, h.low, h.high, h.buf⟩
      · exact ⟨h.width, h.cur, h.ref, h.low, h.high, h.buf⟩
  | horiz2 t =>
    simp only
    cases t.step x with
    | node l r => exact h.withSt _
    | none => rfl
    | leaf v =>
      simp only [G4.parseHoriz2]
      split_ifs
      · refine SoundRes.next ?_ _
        exact horizontal_sound _ w hw ⟨h.width, h.cur, h.ref, h.low, h.high, h.buf⟩
      · exact ⟨h.width, h.cur, h.ref, h.low, h.high, h.buf⟩
  | uncompressed t =>
    simp only
    cases t.step x with
    | node l r => exact h.withSt _
    | none => rfl
    | leaf v =>
      obtain ⟨c, bits⟩ := v
      cases c with
      | none => exact SoundRes.next (uncompressed_sound bits _ w hw h) _
      | some c =>
        refine SoundRes.next (r := G4.doUncompressed bits { s with color := c }) ?_ _
        exact uncompressed_sound bits _ w hw ⟨h.width, h.cur, h.ref, h.low, h.high, h.buf⟩

theorem feedBits_sound (bits : List Bool) (s : G4) (w : Nat) (hw : 0 < w) (h : FaxSound s w) : SoundRes w (G4.feedBits bits s) := by
  induction bits generalizing s with
  | nil => exact h
  | cons x bits ih =>
    have := parseBit_sound s w hw h x
    rw [G4.feedBits]
    generalize s.parseBit x = r at this
    cases r with
    | ok s' => exact ih s' this
    | byteSkip s' => exact this
    | eofb s' => exact this
    | err e => exact this

theorem feedBytes_sound (data : Bytes) (s : G4) (w : Nat) (hw : 0 < w) (h : FaxSound s w) :
    (∃ s', G4.feedBytes data s = .ok s' ∧ FaxSound s' w) ∨ G4.feedBytes data s = .error .ccittInvalid := by
  induction data generalizing s with
  | nil => exact Or.inl ⟨s, rfl, h⟩
  | cons b data ih =>
    have := feedBits_sound (bitsOfByte b) s w hw h
    rw [G4.feedBytes]
    generalize G4.feedBits (bitsOfByte b) s = r at this
    cases r with
    | ok s' => exact ih s' this
    | byteSkip s' => exact ih _ (FaxSound.withSt this _)
    | eofb s' => exact Or.inl ⟨s', rfl, this⟩
    | err e =>
      have : e = .ccittInvalid := this
      subst this
      exact Or.inr rfl

theorem sound_init (w : Nat) (hw : 0 < w) (a r : Bool) : FaxSound (G4.init w a r) w :=
  ⟨rfl, by simp [G4.init, G4.resetLine], by simp [G4.init, G4.resetLine], by simp [G4.init, G4.resetLine],
    by simp [G4.init, G4.resetLine]; omega, by simp [G4.init, G4.resetLine]⟩

end Pdf

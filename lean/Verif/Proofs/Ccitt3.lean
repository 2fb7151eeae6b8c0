import Verif.Proofs.Ccitt2
import Verif.Proofs.TokenSpec
/-! Whole images: several rows, filling, end of data, and the packing of the output. -/

namespace Pdf
open Spec

theorem bitsOfByte_eq : ∀ b : UInt8, bitsOfByte b = byteBits b := by
  refine forall_byte ?_; decide +kernel

theorem byteBits_length (b : UInt8) : (byteBits b).length = 8 := rfl

theorem flatMap_byteBits_length (d : Bytes) : (d.flatMap byteBits).length = 8 * d.length := by
  induction d with
  | nil => rfl
  | cons b d ih => simp only [List.flatMap_cons, List.length_append, ih, byteBits_length, List.length_cons]; omega

/-! ### Packing -/

theorem packByte_full : ∀ a b c d e f g h : Bool, byteBits (packByte [a, b, c, d, e, f, g, h]) = [a, b, c, d, e, f, g, h] := by
  decide +kernel

theorem packByte_pad (l : List Bool) (k : Nat) : packByte (l ++ List.replicate k false) = packByte l := by
  have : ∀ (m : List Nat) (l : List Bool), (((l ++ List.replicate k false).zip m).map fun x => if x.1 then x.2 else 0).sum =
      ((l.zip m).map fun x => if x.1 then x.2 else 0).sum := by
    intro m
    induction m with
    | nil => intro l; simp
    | cons y m ih =>
      intro l
      cases l with
      | nil =>
        clear ih
        simp only [List.nil_append, List.zip_nil_left, List.map_nil, List.sum_nil]
        generalize (y :: m) = ms
        induction ms generalizing k with
        | nil => simp
        | cons z ms ih =>
          cases k with
          | zero => simp
          | succ k => simp [List.replicate_succ, ih]
      | cons x l => simp [ih]
  rw [packByte, this, packByte]

theorem packByte_bits (l : List Bool) (h : l.length ≤ 8) : byteBits (packByte l) = l ++ List.replicate (8 - l.length) false := by
  rw [← packByte_pad l (8 - l.length)]
  have hl : (l ++ List.replicate (8 - l.length) false).length = 8 := by simp; omega
  generalize l ++ List.replicate (8 - l.length) false = m at hl
  match m, hl with
  | [a, b, c, d, e, f, g, h], _ => exact packByte_full a b c d e f g h

theorem packLine_bits (n : Nat) (l : List Bool) (h : l.length ≤ 8 * n) :
    (packLine n l).flatMap byteBits = l ++ List.replicate (8 * n - l.length) false := by
  induction n generalizing l with
  | zero =>
    have : l = [] := List.length_eq_zero_iff.mp (by omega)
    subst this; rfl
  | succ n ih =>
    rw [packLine, List.flatMap_cons, packByte_bits _ (by simp; omega), ih _ (by simp; omega)]
    by_cases hl : 8 ≤ l.length
    · simp only [List.length_take, List.length_drop, Nat.min_eq_left hl, Nat.sub_self, List.replicate_zero, List.append_nil]
      rw [← List.append_assoc, List.take_append_drop]
      congr 2; omega
    · rw [List.take_of_length_le (by omega), List.drop_of_length_le (by omega), List.append_assoc, List.nil_append,
        List.replicate_append_replicate]
      congr 2; simp; omega

/-! ### Bytes and bits -/

theorem feedBytes_ok (data : Bytes) (s s' : G4) (h : G4.feedBits (data.flatMap byteBits) s = .ok s') :
    G4.feedBytes data s = .ok s' := by
  induction data generalizing s with
  | nil => simpa [G4.feedBits, G4.feedBytes] using h
  | cons b data ih =>
    rw [List.flatMap_cons, feedBits_append] at h
    rw [G4.feedBytes, bitsOfByte_eq]
    generalize G4.feedBits (byteBits b) s = r at h
    cases r with
    | ok s1 => exact ih s1 h
    | byteSkip s1 => simp at h
    | eofb s1 => simp at h
    | err e => simp at h

theorem feedBytes_eofb (data : Bytes) (s s' : G4) (h : G4.feedBits (data.flatMap byteBits) s = .eofb s') :
    G4.feedBytes data s = .ok s' := by
  induction data generalizing s with
  | nil => simp [G4.feedBits] at h
  | cons b data ih =>
    rw [List.flatMap_cons, feedBits_append] at h
    rw [G4.feedBytes, bitsOfByte_eq]
    generalize G4.feedBits (byteBits b) s = r at h
    cases r with
    | ok s1 => exact ih s1 h
    | byteSkip s1 => simp at h
    | eofb s1 => simp only [G4Res.eofb.injEq] at h; rw [h]
    | err e => simp at h

theorem feedBytes_skip (data : Bytes) (b tail more : List Bool) (s s' : G4) (hf : Feeds b s (.byteSkip s'))
    (hd : data.flatMap byteBits = b ++ tail ++ more) (ht : tail.length < 8) (hal : (b.length + tail.length) % 8 = 0) :
    ∃ rest, rest.flatMap byteBits = more ∧ G4.feedBytes data s = G4.feedBytes rest { s' with st := .mode modeTable } := by
  induction data generalizing s b with
  | nil =>
    obtain ⟨b0, x, s1, rfl, -, -⟩ := hf
    simp at hd
  | cons y data ih =>
    rw [List.flatMap_cons] at hd
    rw [G4.feedBytes, bitsOfByte_eq]
    by_cases hb : b.length ≤ 8
    · -- the row ends within this byte
      have hbt : b.length + tail.length = 8 := by
        obtain ⟨b0, x, s1, rfl, -, -⟩ := hf
        simp only [List.length_append, List.length_singleton] at hb hal ⊢
        omega
      have he : byteBits y = b ++ tail := by
        have := congrArg (List.take 8) hd
        rw [List.take_append_of_le_length (Nat.le_refl 8), List.take_append_of_le_length (by simp; omega),
          List.take_of_length_le (Nat.le_refl 8), List.take_of_length_le (by simp; omega)] at this
        exact this
      have hm : data.flatMap byteBits = more := by
        rw [he] at hd
        exact List.append_cancel_left hd
      refine ⟨data, hm, ?_⟩
      rw [he, feedBits_append, hf.bits]
    · -- it goes on
      obtain ⟨b0, x, s1, rfl, h1, h2⟩ := hf
      simp only [List.length_append, List.length_singleton] at hb hal
      have hsplit : b0 = byteBits y ++ b0.drop 8 := by
        have := congrArg (List.take 8) hd
        rw [List.take_append_of_le_length (Nat.le_refl 8), List.take_of_length_le (Nat.le_refl 8)] at this
        rw [List.append_assoc, List.append_assoc, List.take_append_of_le_length (by omega)] at this
        rw [this]
        exact (List.take_append_drop 8 b0).symm
      rw [hsplit] at hd h1
      rw [feedBits_append] at h1
      generalize hr : G4.feedBits (byteBits y) s = r at h1
      cases r with
      | ok s2 =>
        simp only at h1 ⊢
        refine ih (b0.drop 8 ++ [x]) s2 ⟨b0.drop 8, x, s1, rfl, h1, h2⟩ ?_ ?_
        · simp only [List.append_assoc] at hd
          have := List.append_cancel_left hd
          simpa using this
        · simp only [List.length_append, List.length_drop, List.length_singleton]
          omega
      | byteSkip _ => simp at h1
      | eofb _ => simp at h1
      | err _ => simp at h1

/-! ### Images -/

/-- The decoder is at the start of a row. -/
structure Fresh (s : G4) (w : Nat) (ref : List Bool) : Prop where
  width : s.width = w
  cur : s.curline = List.replicate w true
  ref : s.refline = ref
  pos : s.curpos = -1
  colour : s.color = true
  st : s.st = .mode modeTable

theorem Fresh.inRow {s w ref row} (h : Fresh s w ref) (hw : 0 < w) (hr : ref.length = w) (hrow : row.length = w) :
    InRow s ref row (-1) :=
  ⟨by rw [h.width, hrow], by omega, by omega, by rw [h.cur]; simp [hrow], h.ref, h.pos, by omega, by omega,
    fun _ => by rw [h.colour]; simp [colourAt], fun i hi => by omega⟩

/-- The bytes of the rows. -/
def packRows (w : Nat) (rev : Bool) (rows : List (List Bool)) : Bytes :=
  rows.flatMap fun row => packLine ((w + 7) / 8) (if rev then row.map not else row)

theorem rows_feed {ref rows bits} (hc : RowsCode ref rows bits) (w : Nat) (hw : 0 < w) (hr : ref.length = w)
    (hrows : ∀ r ∈ rows, r.length = w) (s : G4) (h : Fresh s w ref) (hb : s.bytealign = false) :
    ∃ s' ref', G4.feedBits bits s = .ok s' ∧ Fresh s' w ref' ∧ s'.buf = s.buf ++ packRows w s.reversed rows := by
  induction hc generalizing s with
  | nil => exact ⟨s, _, rfl, h, by simp [packRows]⟩
  | @cons ref row rows b bs hrow hrest ih =>
    have hl : row.length = w := hrows row (by simp)
    obtain ⟨r, hf, s2, g1, g2, g3, g4, g5, g6, g7, g8, g9⟩ := row_feeds hrow s (h.inRow hw hr hl) (by omega) h.st
    rw [hb] at g9
    simp only [Bool.false_eq_true, if_false] at g9
    obtain ⟨s', ref', k1, k2, k3⟩ := ih hl (fun r hr => hrows r (by simp [hr])) { s2 with st := .mode modeTable }
      ⟨by rw [g1, hl], by rw [g3, hl], g2, g4, g5, rfl⟩ (by rw [← hb, ← g6])
    refine ⟨s', ref', ?_, k2, ?_⟩
    · rw [feedBits_append, hf.bits, g9]
      exact k1
    · rw [k3]
      show s2.buf ++ packRows w s2.reversed rows = _
      rw [g7, g8, hl]
      simp [packRows]

theorem aligned_feed {ref rows bits} (hc : AlignedCode ref rows bits) (w : Nat) (hw : 0 < w) (hr : ref.length = w)
    (hrows : ∀ r ∈ rows, r.length = w) (s : G4) (h : Fresh s w ref) (hb : s.bytealign = true) (data : Bytes) (more : List Bool)
    (hd : data.flatMap byteBits = bits ++ more) :
    ∃ s' ref' rest, rest.flatMap byteBits = more ∧ G4.feedBytes data s = G4.feedBytes rest s' ∧ Fresh s' w ref' ∧
      s'.buf = s.buf ++ packRows w s.reversed rows := by
  induction hc generalizing s data with
  | nil => exact ⟨s, _, data, by simpa using hd, rfl, h, by simp [packRows]⟩
  | @cons ref row rows b bs pad hrow hp hal hrest ih =>
    have hl : row.length = w := hrows row (by simp)
    obtain ⟨r, hf, s2, g1, g2, g3, g4, g5, g6, g7, g8, g9⟩ := row_feeds hrow s (h.inRow hw hr hl) (by omega) h.st
    rw [hb] at g9
    simp only [if_true] at g9
    subst g9
    obtain ⟨rest, e1, e2⟩ := feedBytes_skip data b (List.replicate pad false) (bs ++ more) s s2 hf
      (by rw [hd, List.append_assoc]) (by simpa using hp) (by simpa using hal)
    obtain ⟨s', ref', rest', k1, k2, k3, k4⟩ := ih hl (fun r hr => hrows r (by simp [hr])) { s2 with st := .mode modeTable }
      ⟨by rw [g1, hl], by rw [g3, hl], g2, g4, g5, rfl⟩ (by rw [← hb, ← g6]) rest e1
    refine ⟨s', ref', rest', k1, e2.trans k2, k3, ?_⟩
    rw [k4]
    show s2.buf ++ packRows w s2.reversed rows = _
    rw [g7, g8, hl]
    simp [packRows]

/-! ### The end -/

theorem eofb_feeds (s : G4) (hs : s.st = .mode modeTable) (x : List Bool) :
    ∃ s', G4.feedBits (endOfBlock ++ x) s = .eofb s' ∧ s'.buf = s.buf := by
  obtain ⟨t', hf⟩ := feeds_mode s _ _ _ hs eofb_lookup
  refine ⟨{ s with st := .mode t' }, ?_, rfl⟩
  rw [feedBits_append, hf.bits]
  rfl

/-- Following the bits ends at an inner node. -/
def Trie.inner {α : Type} : Trie α → List Bool → Bool
  | _, [] => true
  | t, x :: xs => match t.step x with | .node l r => Trie.inner (.node l r) xs | _ => false

theorem inner_feeds (b : List Bool) (s : G4) (t : Trie G4Mode) (hs : s.st = .mode t) (h : t.inner b = true) :
    ∃ t', G4.feedBits b s = .ok { s with st := .mode t' } := by
  induction b generalizing s t with
  | nil => exact ⟨t, by simp [G4.feedBits, ← hs]⟩
  | cons x b ih =>
    simp only [Trie.inner] at h
    cases hst : t.step x with
    | none => simp [hst] at h
    | leaf v => simp [hst] at h
    | node l r =>
      simp only [hst] at h
      obtain ⟨t', h2⟩ := ih { s with st := .mode (.node l r) } _ rfl h
      refine ⟨t', ?_⟩
      simp only [G4.feedBits, G4.parseBit, hs, hst]
      exact h2

theorem zeros_inner : ∀ n, n < 8 → modeTable.inner (List.replicate n false) = true := by decide +kernel

theorem tail_feeds (s : G4) (hs : s.st = .mode modeTable) (rest : List Bool)
    (h : (∃ x, rest = endOfBlock ++ x) ∨ ∃ n, n < 8 ∧ rest = List.replicate n false) :
    ∃ s', (G4.feedBits rest s = .ok s' ∨ G4.feedBits rest s = .eofb s') ∧ s'.buf = s.buf := by
  rcases h with ⟨x, rfl⟩ | ⟨n, hn, rfl⟩
  · obtain ⟨s', h1, h2⟩ := eofb_feeds s hs x
    exact ⟨s', Or.inr h1, h2⟩
  · obtain ⟨t', h1⟩ := inner_feeds _ s _ hs (zeros_inner n hn)
    exact ⟨_, Or.inl h1, rfl⟩

theorem fresh_init (w : Nat) (a r : Bool) : Fresh (G4.init w a r) w (List.replicate w true) :=
  ⟨rfl, by simp [G4.init, G4.resetLine], by simp [G4.init, G4.resetLine], rfl, rfl, rfl⟩

theorem group4_feeds (align rev : Bool) (w : Nat) (hw : 0 < w) (rows : List (List Bool)) (hrows : ∀ r ∈ rows, r.length = w) (data : Bytes)
    (h : Group4 align w rows data) : ∃ s, G4.feedBytes data (G4.init w align rev) = .ok s ∧ s.buf = packRows w rev rows := by
  obtain ⟨bits, rest, hc, hd, ht⟩ := h
  cases align with
  | false =>
    simp only [Bool.false_eq_true, if_false] at hc
    obtain ⟨s', ref', h1, h2, h3⟩ := rows_feed hc w hw (by simp) hrows _ (fresh_init w false rev) rfl
    obtain ⟨s2, h4, h5⟩ := tail_feeds s' h2.st rest ht
    refine ⟨s2, ?_, by rw [h5, h3]; simp [G4.init, G4.resetLine]⟩
    have hb : G4.feedBits (data.flatMap byteBits) (G4.init w false rev) = G4.feedBits rest s' := by
      rw [hd, feedBits_append, h1]
    rcases h4 with h4 | h4
    · exact feedBytes_ok _ _ _ (hb.trans h4)
    · exact feedBytes_eofb _ _ _ (hb.trans h4)
  | true =>
    simp only [if_true] at hc
    obtain ⟨s', ref', rest', h0, h1, h2, h3⟩ := aligned_feed hc w hw (by simp) hrows _ (fresh_init w true rev) rfl data rest hd
    obtain ⟨s2, h4, h5⟩ := tail_feeds s' h2.st rest ht
    refine ⟨s2, ?_, by rw [h5, h3]; simp [G4.init, G4.resetLine]⟩
    rw [h1]
    rw [← h0] at h4
    rcases h4 with h4 | h4
    · exact feedBytes_ok _ _ _ h4
    · exact feedBytes_eofb _ _ _ h4

theorem packRows_unpacked (rev : Bool) (w : Nat) (rows : List (List Bool)) (hrows : ∀ r ∈ rows, r.length = w) :
    Unpacked rev w rows (packRows w rev rows) := by
  rw [Unpacked, packRows, List.flatMap_assoc]
  apply List.flatMap_congr
  intro row hrow
  have hl := hrows row hrow
  rw [packLine_bits _ _ (by cases rev <;> simp <;> omega)]
  cases rev
  · simp [hl]
  · simp [hl]

end Pdf

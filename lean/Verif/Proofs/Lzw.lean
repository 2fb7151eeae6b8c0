import Verif.Model.Lzw
import Verif.Spec.Lzw

namespace Pdf
open Spec

/-- Value of a bit list, most significant first. -/
def bitVal (bs : List Bool) : Nat := bs.foldl (fun v b => 2 * v + b.toNat) 0

theorem bitVal_append_aux (bs : List Bool) (v : Nat) :
    bs.foldl (fun v b => 2 * v + b.toNat) v = v * 2 ^ bs.length + bitVal bs := by
  induction bs generalizing v with
  | nil => simp [bitVal]
  | cons b bs ih =>
    have h0 := ih (2 * 0 + b.toNat)
    simp only [bitVal, List.foldl_cons, List.length_cons] at *
    rw [ih, h0, Nat.pow_succ]
    generalize 2 ^ bs.length = q
    generalize b.toNat = t
    simp only [Nat.add_mul, Nat.mul_zero, Nat.zero_add]
    rw [Nat.mul_comm 2 v, Nat.mul_assoc, Nat.mul_comm 2 q]; omega

theorem bitVal_append (as bs : List Bool) : bitVal (as ++ bs) = bitVal as * 2 ^ bs.length + bitVal bs := by
  conv => lhs; unfold bitVal
  rw [List.foldl_append, bitVal_append_aux]; rfl

theorem natBits_length (v n : Nat) : (natBits v n).length = n := by
  induction n with
  | zero => rfl
  | succ n ih => simp [natBits, ih]

theorem bitVal_natBits (v n : Nat) : bitVal (natBits v n) = v % 2 ^ n := by
  induction n with
  | zero => simp [natBits, bitVal]; omega
  | succ n ih =>
    rw [natBits, show v.testBit n :: natBits v n = [v.testBit n] ++ natBits v n from rfl, bitVal_append,
      natBits_length, ih, Nat.mod_pow_succ, Nat.testBit_eq_decide_div_mod_eq]
    have : bitVal [decide (v / 2 ^ n % 2 = 1)] = v / 2 ^ n % 2 := by
      have h2 := Nat.mod_lt (v / 2 ^ n) (show 2 > 0 by decide)
      by_cases h : v / 2 ^ n % 2 = 1
      · simp [bitVal, h]
      · simp [bitVal, h]; omega
    rw [this, Nat.mul_comm]; omega

theorem byteBits_eq (b : UInt8) : byteBits b = natBits b.toNat 8 := rfl

/-- Splitting `natBits`. -/
theorem natBits_split (v : Nat) (n m : Nat) : natBits v (n + m) = natBits (v >>> m) n ++ natBits v m := by
  induction n with
  | zero => simp [natBits]
  | succ n ih =>
    rw [show n + 1 + m = (n + m) + 1 by omega, natBits, natBits, ih, Nat.testBit_shiftRight, Nat.add_comm m n]
    rfl

theorem shl_or_mod (v x n : Nat) : (v <<< n) ||| (x &&& ((1 <<< n) - 1)) = v * 2 ^ n + x % 2 ^ n := by
  have h1 : x &&& ((1 <<< n) - 1) = x % 2 ^ n := by
    rw [Nat.one_shiftLeft]; exact Nat.and_two_pow_sub_one_eq_mod x n
  have hlt : x % 2 ^ n < 2 ^ n := Nat.mod_lt _ (Nat.two_pow_pos n)
  rw [h1, Nat.shiftLeft_eq, Nat.mul_comm, Nat.two_pow_add_eq_or_of_lt hlt]

/-- The bits the reader still has before it. -/
def pend (rest : Bytes) (buff bpos : Nat) : List Bool := natBits buff (8 - bpos) ++ rest.flatMap byteBits

/-- `readbits` reads the next bits, most significant first. -/
theorem lzwReadBits_spec (rest : Bytes) (buff bpos bits v : Nat) (now later : List Bool)
    (hb : bpos ≤ 8) (hp : pend rest buff bpos = now ++ later) (hn : now.length = bits) :
    ∃ rest' buff' bpos', lzwReadBits rest buff bpos bits v =
        some (v * 2 ^ bits + bitVal now, rest', buff', bpos') ∧ bpos' ≤ 8 ∧
        pend rest' buff' bpos' = later ∧ (8 - bpos < bits → rest'.length < rest.length) := by
  induction rest generalizing buff bpos bits v now with
  | nil =>
    rw [lzwReadBits.eq_def]
    dsimp only
    have hlen : bits + later.length = 8 - bpos := by
      have := congrArg List.length hp
      simp [pend, natBits_length] at this; omega
    rw [if_pos (by omega)]
    have hs : natBits buff (8 - bpos) = natBits (buff >>> (8 - bpos - bits)) bits ++ natBits buff (8 - bpos - bits) := by
      rw [← natBits_split, show bits + (8 - bpos - bits) = 8 - bpos by omega]
    simp only [pend, List.flatMap_nil, List.append_nil] at hp
    rw [hs] at hp
    obtain ⟨e1, e2⟩ := List.append_inj hp (by rw [natBits_length, hn])
    refine ⟨[], buff, bpos + bits, ?_, by omega, ?_, by omega⟩
    · rw [shl_or_mod, ← e1, bitVal_natBits]
    · simp only [pend, List.flatMap_nil, List.append_nil]
      rw [← e2, show 8 - (bpos + bits) = 8 - bpos - bits by omega]
  | cons x xs ih =>
    rw [lzwReadBits.eq_def]
    dsimp only
    by_cases hr : bits ≤ 8 - bpos
    · rw [if_pos hr]
      have hs : natBits buff (8 - bpos) = natBits (buff >>> (8 - bpos - bits)) bits ++ natBits buff (8 - bpos - bits) := by
        rw [← natBits_split, show bits + (8 - bpos - bits) = 8 - bpos by omega]
      rw [pend, hs, List.append_assoc] at hp
      obtain ⟨e1, e2⟩ := List.append_inj hp (by rw [natBits_length, hn])
      refine ⟨x :: xs, buff, bpos + bits, ?_, by omega, ?_, by omega⟩
      · rw [shl_or_mod, ← e1, bitVal_natBits]
      · rw [pend, ← e2, show 8 - (bpos + bits) = 8 - bpos - bits by omega]
    · rw [if_neg hr]
      have hp' := hp
      rw [pend] at hp
      -- `now` begins with the pending bits
      have hnow : now = natBits buff (8 - bpos) ++ now.drop (8 - bpos) := by
        have h1 := congrArg (List.take (8 - bpos)) hp
        rw [List.take_left' (natBits_length _ _), List.take_append_of_le_length (by omega)] at h1
        rw [h1, List.take_append_drop]
      generalize now.drop (8 - bpos) = now2 at hnow
      subst hnow
      rw [List.append_assoc, List.append_cancel_left_eq] at hp
      simp only [List.length_append, natBits_length] at hn
      have hp2 : pend xs x.toNat 0 = now2 ++ later := by
        rw [← hp]; rfl
      obtain ⟨r', b', p', h1, h2, h3, h4⟩ := ih x.toNat 0 (bits - (8 - bpos))
        ((v <<< (8 - bpos)) ||| (buff &&& ((1 <<< (8 - bpos)) - 1))) now2 (by omega) hp2 (by omega)
      refine ⟨r', b', p', ?_, h2, h3, ?_⟩
      · rw [h1, shl_or_mod, bitVal_append, bitVal_natBits]
        congr 2
        rw [show now2.length = bits - (8 - bpos) by omega, Nat.add_mul, Nat.mul_assoc, ← Nat.pow_add,
          show 8 - bpos + (bits - (8 - bpos)) = bits by omega]
        omega
      · intro _
        by_cases h : 8 - 0 < bits - (8 - bpos)
        · have := h4 h; simp; omega
        · -- the value fits in the byte just read: nothing more is consumed
          rw [lzwReadBits.eq_def] at h1
          dsimp only at h1
          rw [if_pos (by omega)] at h1
          simp only [Option.some.injEq, Prod.mk.injEq] at h1
          rw [← h1.2.1]; simp

/-- Too few bits: `EOFError`. -/
theorem lzwReadBits_eof (rest : Bytes) (buff bpos bits v : Nat) (hb : bpos ≤ 8)
    (h : (pend rest buff bpos).length < bits) : lzwReadBits rest buff bpos bits v = none := by
  induction rest generalizing buff bpos bits v with
  | nil =>
    rw [lzwReadBits.eq_def]
    dsimp only
    simp [pend, natBits_length] at h
    rw [if_neg (by omega)]
  | cons x xs ih =>
    rw [lzwReadBits.eq_def]
    dsimp only
    simp only [pend, List.flatMap_cons, List.length_append, natBits_length] at h
    rw [if_neg (by omega)]
    apply ih
    · omega
    · simp only [pend, List.length_append, natBits_length]
      have : (byteBits x).length = 8 := rfl
      omega

end Pdf

namespace Pdf
open Spec

/-- Relation between encoder state and decoder state. -/
def LzwSim : Option (List Bytes × Bytes) → LzwSt → Prop
  | none, s => s = ⟨9, some lzwTable0, some []⟩
  | some (dict, prev), s => s.table = some (lzwTable0 ++ dict.map some) ∧ s.prevbuf = some prev ∧ prev ≠ [] ∧
      s.nbits = codeWidth (dict.length + 1)

theorem LzwSim.nbits {st s} (h : LzwSim st s) :
    s.nbits = codeWidth (st.elim 0 (fun s => s.1.length + 1)) := by
  match st with
  | none => rw [LzwSim] at h; subst h; rfl
  | some (d, p) => exact h.2.2.2

theorem LzwSim.table {st s} (h : LzwSim st s) : s.table.isNone = false := by
  match st with
  | none => rw [LzwSim] at h; subst h; rfl
  | some (d, p) => rw [h.1]; rfl

theorem codeWidth_ge (k : Nat) : 9 ≤ codeWidth k := by
  unfold codeWidth; repeat' split
  all_goals omega

theorem codeWidth_bound (k : Nat) : 512 ≤ 2 ^ codeWidth k :=
  Nat.le_trans (by decide) (Nat.pow_le_pow_right (by decide) (codeWidth_ge k))

theorem lzwWidth_succ (k : Nat) : lzwWidth (codeWidth k) (258 + k) = codeWidth (k + 1) := by
  unfold lzwWidth codeWidth
  repeat' split
  all_goals omega

theorem lzwTable0_length : lzwTable0.length = 258 := by simp [lzwTable0]

theorem lzwAt_byte (dict : List Bytes) (b : UInt8) :
    lzwAt (some (lzwTable0 ++ dict.map some)) b.toNat = .ok [b] := by
  have hb : b.toNat < 256 := b.toNat_lt
  have : (lzwTable0 ++ dict.map some)[b.toNat]? = some (some [b]) := by
    unfold lzwTable0
    rw [List.append_assoc, List.getElem?_append_left (by simp; exact hb)]
    simp [hb]
  simp [lzwAt, this]

theorem lzwAt_dict (dict : List Bytes) (c : Nat) (p : Bytes) (hc : 258 ≤ c) (h : dict[c - 258]? = some p) :
    lzwAt (some (lzwTable0 ++ dict.map some)) c = .ok p := by
  have : (lzwTable0 ++ dict.map some)[c]? = some (some p) := by
    rw [List.getElem?_append_right (by rw [lzwTable0_length]; exact hc), lzwTable0_length, List.getElem?_map, h]
    rfl
  simp [lzwAt, this]

theorem IsCode.ne {dict p c} (h : IsCode dict p c) : c ≠ 256 ∧ c ≠ 257 := by
  rcases h with ⟨b, _, h⟩ | ⟨h, _⟩
  · have := b.toNat_lt; omega
  · omega

theorem lzwFeed_first (p : Bytes) (c : Nat) (h : IsCode [] p c) :
    ∃ s', lzwFeed ⟨9, some lzwTable0, some []⟩ c = .ok (s', p) ∧ LzwSim (some ([], p)) s' := by
  have hne := IsCode.ne h
  rcases h with ⟨b, hp, hc⟩ | ⟨_, hd⟩
  · subst hp hc
    have hat := lzwAt_byte [] b
    simp only [List.map_nil, List.append_nil] at hat
    refine ⟨⟨9, some lzwTable0, some [b]⟩, ?_, ?_⟩
    · unfold lzwFeed
      rw [if_neg hne.1, if_neg hne.2]
      simp [hat, bind, Except.bind]
    · simp [LzwSim, codeWidth]
  · simp at hd

theorem lzwFeed_next (dict : List Bytes) (prev p : Bytes) (h : UInt8) (c : Nat) (s : LzwSt)
    (hh : p.head? = some h) (hc : IsCode (dict ++ [prev ++ [h]]) p c) (hs : LzwSim (some (dict, prev)) s) :
    ∃ s', lzwFeed s c = .ok (s', p) ∧ LzwSim (some (dict ++ [prev ++ [h]], p)) s' := by
  have hne := IsCode.ne hc
  obtain ⟨ht, hp, hprev, hn⟩ := hs
  obtain ⟨nb, tb, pb⟩ := s
  simp only at ht hp hn
  subst ht hp hn
  obtain ⟨q, qs, rfl⟩ := List.exists_cons_of_ne_nil hprev
  have hpne : p ≠ [] := by intro e; subst e; simp at hh
  have htake : p.take 1 = [h] := by cases p with
    | nil => simp at hh
    | cons a as => simp at hh; simp [hh]
  have hlen : (lzwTable0 ++ dict.map some).length = 258 + dict.length := by simp [lzwTable0_length]
  have hw : ∀ e : Bytes, lzwWidth (codeWidth (dict.length + 1)) ((lzwTable0 ++ dict.map some ++ [some e]).length) =
      codeWidth (dict.length + 1 + 1) := by
    intro e
    rw [List.length_append, hlen, List.length_singleton, Nat.add_assoc]; exact lzwWidth_succ _
  -- the two ways a phrase is found in the decoder's table
  have known : ∀ (hlt : c < 258 + dict.length) (hat : lzwAt (some (lzwTable0 ++ dict.map some)) c = .ok p),
      ∃ s', lzwFeed ⟨codeWidth (dict.length + 1), some (lzwTable0 ++ dict.map some), some (q :: qs)⟩ c = .ok (s', p) ∧
        LzwSim (some (dict ++ [(q :: qs) ++ [h]], p)) s' := by
    intro hlt hat
    refine ⟨⟨codeWidth (dict.length + 1 + 1), some (lzwTable0 ++ dict.map some ++ [some ((q :: qs) ++ [h])]), some p⟩, ?_, ?_⟩
    · unfold lzwFeed
      rw [if_neg hne.1, if_neg hne.2]
      dsimp only
      rw [if_pos (by omega), hat]
      simp only [bind, Except.bind, htake, hw]
    · simp [LzwSim, hpne]
  rcases hc with ⟨b, hp, hc⟩ | ⟨hc, hd⟩
  · subst hp hc
    have := b.toNat_lt
    exact known (by omega) (lzwAt_byte dict b)
  · by_cases hlt : c - 258 < dict.length
    · rw [List.getElem?_append_left hlt] at hd
      exact known (by omega) (lzwAt_dict dict c p hc hd)
    · -- the entry being defined by this very phrase
      have heq : c - 258 = dict.length := by
        have : c - 258 < (dict ++ [q :: qs ++ [h]]).length := by
          rw [List.getElem?_eq_some_iff] at hd; exact hd.1
        simp at this; omega
      rw [heq] at hd
      simp at hd
      subst hd
      simp at hh
      subst hh
      refine ⟨⟨codeWidth (dict.length + 1 + 1), some (lzwTable0 ++ dict.map some ++ [some ((q :: qs) ++ [q])]), some ((q :: qs) ++ [q])⟩, ?_, ?_⟩
      · unfold lzwFeed
        rw [if_neg hne.1, if_neg hne.2]
        dsimp only
        rw [if_neg (by omega), if_pos (by omega), hw]
        rfl
      · simp [LzwSim]

/-- One step of the main loop on a code that is present in the input. -/
theorem lzwRun_step (c fuel : Nat) (rest : Bytes) (buff bpos : Nat) (s s' : LzwSt) (out x : Bytes)
    (later : List Bool) (hb : bpos ≤ 8) (hp : pend rest buff bpos = natBits c s.nbits ++ later)
    (hc : c < 2 ^ s.nbits) (hw : 9 ≤ s.nbits) (hf : lzwFeed s c = .ok (s', x)) (ht : s'.table.isNone = false)
    (hfuel : rest.length < fuel) :
    ∃ fuel' rest' buff' bpos', lzwRun fuel rest buff bpos s out = lzwRun fuel' rest' buff' bpos' s' (out ++ x) ∧
      bpos' ≤ 8 ∧ pend rest' buff' bpos' = later ∧ rest'.length < fuel' := by
  obtain ⟨fuel, rfl⟩ : ∃ f, fuel = f + 1 := ⟨fuel - 1, by omega⟩
  obtain ⟨r', b', p', h1, h2, h3, h4⟩ := lzwReadBits_spec rest buff bpos s.nbits 0 (natBits c s.nbits) later hb hp
    (natBits_length _ _)
  refine ⟨fuel, r', b', p', ?_, h2, h3, ?_⟩
  · rw [lzwRun, h1]
    rw [bitVal_natBits, Nat.mod_eq_of_lt hc]
    simp [hf, ht]
  · have := h4 (by omega); omega

theorem lzwRun_done (fuel : Nat) (rest : Bytes) (buff bpos : Nat) (s : LzwSt) (out : Bytes)
    (hb : bpos ≤ 8) (hp : (pend rest buff bpos).length < 9) (hw : 9 ≤ s.nbits) (hfuel : rest.length < fuel) :
    lzwRun fuel rest buff bpos s out = .ok out := by
  obtain ⟨fuel, rfl⟩ : ∃ f, fuel = f + 1 := ⟨fuel - 1, by omega⟩
  rw [lzwRun, lzwReadBits_eof _ _ _ _ _ hb (by omega)]

theorem Spec.LzwEnc.run {st data bits} (h : LzwEnc st data bits) (rest : Bytes) (buff bpos : Nat) (s : LzwSt)
    (out : Bytes) (fuel : Nat) (pad : List Bool) (hs : LzwSim st s) (hb : bpos ≤ 8)
    (hp : pend rest buff bpos = bits ++ pad) (hpad : pad.length < 9) (hfuel : rest.length < fuel) :
    lzwRun fuel rest buff bpos s out = .ok (out ++ data) := by
  induction h generalizing rest buff bpos s out fuel with
  | stop st =>
    rw [List.append_nil]
    have : 9 ≤ s.nbits := by rw [hs.nbits]; exact codeWidth_ge _
    exact lzwRun_done _ _ _ _ _ _ hb (by rw [hp]; simpa using hpad) this hfuel
  | eod st =>
    have hw : 9 ≤ s.nbits := by rw [hs.nbits]; exact codeWidth_ge _
    rw [← hs.nbits] at hp
    obtain ⟨f', r', b', p', h1, h2, h3, h4⟩ := lzwRun_step 257 fuel rest buff bpos s s out [] pad hb hp
      (by have := codeWidth_bound (st.elim 0 (fun s => s.1.length + 1)); rw [← hs.nbits] at this; omega) hw
      (by simp [lzwFeed]) hs.table hfuel
    rw [h1]
    simp only [List.append_nil]
    exact lzwRun_done _ _ _ _ _ _ h2 (by rw [h3]; exact hpad) hw h4
  | clear st _ ih =>
    have hw : 9 ≤ s.nbits := by rw [hs.nbits]; exact codeWidth_ge _
    rw [← hs.nbits, List.append_assoc] at hp
    obtain ⟨f', r', b', p', h1, h2, h3, h4⟩ := lzwRun_step 256 fuel rest buff bpos s _ out [] _ hb hp
      (by have := codeWidth_bound (st.elim 0 (fun s => s.1.length + 1)); rw [← hs.nbits] at this; omega) hw
      (by simp [lzwFeed]; rfl) rfl hfuel
    rw [h1, ih r' b' p' _ _ f' rfl h2 h3 h4]
    simp
  | first p c hc _ ih =>
    have hw : 9 ≤ s.nbits := by rw [hs.nbits]; exact codeWidth_ge _
    have hs' := hs
    rw [LzwSim] at hs'
    subst hs'
    obtain ⟨s', hf, hsim⟩ := lzwFeed_first p c hc
    rw [List.append_assoc] at hp
    have hlt : c < 2 ^ 9 := by
      rcases hc with ⟨b, _, h⟩ | ⟨_, hd⟩
      · have := b.toNat_lt; omega
      · simp at hd
    obtain ⟨f', r', b', p', h1, h2, h3, h4⟩ := lzwRun_step c fuel rest buff bpos _ s' out p _ hb hp hlt hw hf hsim.table hfuel
    rw [h1, ih r' b' p' _ _ f' hsim h2 h3 h4]
    simp
  | next dict prev p h c hh hc hlt _ ih =>
    have hw : 9 ≤ s.nbits := by rw [hs.nbits]; exact codeWidth_ge _
    obtain ⟨s', hf, hsim⟩ := lzwFeed_next dict prev p h c s hh hc hs
    have hn : s.nbits = codeWidth (dict.length + 1) := hs.nbits
    rw [← hn, List.append_assoc] at hp
    rw [← hn] at hlt
    obtain ⟨f', r', b', p', h1, h2, h3, h4⟩ := lzwRun_step c fuel rest buff bpos s s' out p _ hb hp hlt hw hf hsim.table hfuel
    rw [h1, ih r' b' p' _ _ f' hsim h2 h3 h4]
    simp

end Pdf

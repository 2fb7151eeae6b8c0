import Verif.Spec.Print
import Verif.Spec.Token
import Verif.Proofs.Object2
import Verif.Props.Tokenizer
/-! The printer writes what it should. -/

namespace Pdf
open Spec

theorem natDigits_eq (n : Nat) : natDigits n = natNumeral n := by
  induction n using Nat.strongRecOn with
  | ind n ih =>
    rw [natDigits, natNumeral]
    split
    · rfl
    · rw [ih (n / 10) (by omega)]

theorem natDigits_spec (n : Nat) : natDigits n ≠ [] ∧ (∀ c ∈ natDigits n, Digit c) ∧ Spec.decimal (natDigits n) = n := by
  rw [natDigits_eq]; exact natNumeral_spec n

theorem sign_signOf (n : Int) : ∃ f, Sign (signOf n) f ∧ f n.natAbs = n := by
  unfold signOf
  split
  · exact ⟨_, .minus, by omega⟩
  · exact ⟨_, .none, by omega⟩

theorem decimal_replicate (k : Nat) (l : Bytes) : Spec.decimal (List.replicate k 48 ++ l) = Spec.decimal l := by
  induction k with
  | zero => simp
  | succ k ih =>
    rw [List.replicate_succ, List.cons_append, Spec.decimal, ih]
    simp [show (48 : UInt8).toNat - 48 = 0 from rfl]

theorem padded_spec (n k : Nat) : k + 1 ≤ (padded n k).length ∧ (∀ c ∈ padded n k, Digit c) ∧ Spec.decimal (padded n k) = n := by
  obtain ⟨h1, h2, h3⟩ := natDigits_spec n
  unfold padded
  refine ⟨by simp; omega, ?_, by rw [decimal_replicate, h3]⟩
  intro c hc
  rw [List.mem_append] at hc
  rcases hc with hc | hc
  · rw [List.mem_replicate] at hc
    rw [hc.2]; decide
  · exact h2 c hc

theorem octalBody_spec (v : Bytes) : StrBody (octalBody v) v := by
  induction v with
  | nil => exact .nil
  | cons c cs ih =>
    have hlt := UInt8.toNat_lt c
    have : c = UInt8.ofNat (64 * (c.toNat / 64) + 8 * (c.toNat % 64 / 8) + c.toNat % 8) := by
      rw [show 64 * (c.toNat / 64) + 8 * (c.toNat % 64 / 8) + c.toNat % 8 = c.toNat by omega, UInt8.ofNat_toNat]
    have h2 := StrBody.oct (a := c.toNat / 64) (b := c.toNat % 64 / 8) (d := c.toNat % 8) (by omega) (by omega) (by omega) ih
    rw [← this] at h2
    exact h2

theorem alnum_not_delim (c : UInt8)
    (h : (48 ≤ c.toNat ∧ c.toNat ≤ 57) ∨ (65 ≤ c.toNat ∧ c.toNat ≤ 90) ∨ (97 ≤ c.toNat ∧ c.toNat ≤ 122)) : ¬ Delim c := by
  revert c; refine forall_byte ?_; decide +kernel

theorem nameBody_spec (v : Bytes) : NameBody (nameBody v) v := by
  induction v with
  | nil => exact .nil
  | cons c cs ih =>
    unfold nameBody
    split
    · rename_i h; exact .plain (alnum_not_delim c h) ih
    · have hlt := UInt8.toNat_lt c
      have : c = UInt8.ofNat (16 * (c.toNat / 16) + c.toNat % 16) := by
        rw [show 16 * (c.toNat / 16) + c.toNat % 16 = c.toNat by omega, UInt8.ofNat_toNat]
      have h2 := NameBody.hex (hexChar_spec (c.toNat / 16) (by omega)) (hexChar_spec (c.toNat % 16) (by omega)) ih
      rw [← this] at h2
      exact h2

/-- The tokens the printer can print: all, but keywords must be brackets or words. -/
def Printable : Tok → Prop
  | .kw n => n ∈ brackets ∨ ∃ c cs, n = c :: cs ∧ ((65 ≤ c.toNat ∧ c.toNat ≤ 90) ∨ (97 ≤ c.toNat ∧ c.toNat ≤ 122)) ∧
      (∀ x ∈ cs, ¬ Delim x) ∧ n ≠ [116, 114, 117, 101] ∧ n ≠ [102, 97, 108, 115, 101]
  | _ => True

theorem spells_printTok (t : Tok) (h : Printable t) : ∃ k, Spells (printTok t) t k := by
  cases t with
  | int n =>
    obtain ⟨f, h1, h2⟩ := sign_signOf n
    obtain ⟨d1, d2, d3⟩ := natDigits_spec n.natAbs
    have := Spells.int h1 d1 d2
    rw [d3, h2] at this
    exact ⟨_, this⟩
  | real m k =>
    obtain ⟨f, h1, h2⟩ := sign_signOf m
    obtain ⟨d1, d2, d3⟩ := padded_spec m.natAbs k
    have := Spells.real (ip := (padded m.natAbs k).take ((padded m.natAbs k).length - k))
      (fp := (padded m.natAbs k).drop ((padded m.natAbs k).length - k)) h1
      (Or.inl (by intro e; have := congrArg List.length e; rw [List.length_take] at this; simp at this; omega))
      (fun c hc => d2 c (List.mem_of_mem_take hc)) (fun c hc => d2 c (List.mem_of_mem_drop hc))
    rw [List.take_append_drop, d3, h2, List.length_drop, show (padded m.natAbs k).length - ((padded m.natAbs k).length - k) = k by omega] at this
    exact ⟨_, this⟩
  | bool b => cases b with
    | true => exact ⟨_, .true⟩
    | false => exact ⟨_, .false⟩
  | str s => exact ⟨_, .str (octalBody_spec s)⟩
  | lit n => exact ⟨_, .name (nameBody_spec n)⟩
  | kw n =>
    rcases h with h | ⟨c, cs, rfl, h1, h2, h3, h4⟩
    · simp only [brackets, List.mem_cons, List.not_mem_nil, or_false] at h
      rcases h with rfl | rfl | rfl | rfl | rfl | rfl
      · exact ⟨_, .bracket (by decide)⟩
      · exact ⟨_, .bracket (by decide)⟩
      · exact ⟨_, .dictOpen⟩
      · exact ⟨_, .dictClose⟩
      · exact ⟨_, .bracket (by decide)⟩
      · exact ⟨_, .bracket (by decide)⟩
    · exact ⟨_, .keyword h1 h2 h3 h4⟩

theorem ends_space (k : Ends) (rest : Bytes) : k.ok (32 :: rest) := by
  cases k with
  | anything => trivial
  | notDigitOrDot => exact ⟨32, rest, rfl, by decide, by decide⟩
  | delimiter => exact ⟨32, rest, rfl, by decide, by decide⟩
  | notGreater => intro c hc; simp at hc; subst hc; decide

theorem text_print (ts : List Tok) (h : ∀ t ∈ ts, Printable t) (p : Nat) (b : Bytes) :
    ∃ pts, pts.map Prod.snd = ts ∧ Text p pts (printToks ts) b := by
  induction ts generalizing p with
  | nil => exact ⟨[], rfl, .nil⟩
  | cons t ts ih =>
    obtain ⟨k, hk⟩ := spells_printTok t (h t (by simp))
    obtain ⟨pts, h1, h2⟩ := ih (fun t ht => h t (by simp [ht])) (p + (printTok t).length + 1)
    refine ⟨(p, t) :: pts, by rw [List.map_cons, h1], ?_⟩
    exact .tok hk (by rw [List.cons_append]; exact ends_space k _) (.white (by decide) h2)

/-! ### Tokens of an object -/

theorem lastValue_nodup (d : List (Key × Obj)) (hd : (d.map Prod.fst).Nodup) : ∀ x ∈ d, lastValue x.1 d = some x.2 := by
  induction d with
  | nil => simp
  | cons y ys ih =>
    obtain ⟨a, b⟩ := y
    simp only [List.map_cons, List.nodup_cons] at hd
    have none : ∀ (l : List (Key × Obj)) k, k ∉ l.map Prod.fst → lastValue k l = none := by
      intro l
      induction l with
      | nil => intro _ _; rfl
      | cons z zs ihz =>
        intro k hk
        obtain ⟨c, e⟩ := z
        simp only [List.map_cons, List.mem_cons, not_or] at hk
        simp [lastValue, ihz k hk.2, Ne.symm hk.1]
    intro x hx
    rcases List.mem_cons.mp hx with rfl | hx
    · simp [lastValue, none ys a hd.1]
    · simp [lastValue, ih hd.2 x hx]

theorem firsts_nodup (ks : List Key) (h : ks.Nodup) : firsts ks = ks := by
  induction ks with
  | nil => rfl
  | cons a as ih =>
    rw [List.nodup_cons] at h
    rw [firsts, ih h.2, List.filter_eq_self.mpr]
    intro x hx
    simp only [decide_eq_true_eq]
    rintro rfl
    exact h.1 hx

theorem dictOf_self (d : List (Key × Obj)) (hd : (d.map Prod.fst).Nodup) : DictOf d d :=
  ⟨(firsts_nodup _ hd).symm, lastValue_nodup d hd⟩

theorem wf_not_null {o : Obj} (h : WF o) : o ≠ .null := by rintro rfl; simp [WF] at h

mutual
theorem writes_obj {D : Dialect} (hD : D.refs = true) : (o : Obj) → WF o → Writes D (objToks o) o
  | .null, h => by simp [WF] at h
  | .kw _, h => by simp [WF] at h
  | .stream _ _, h => by simp [WF] at h
  | .int n, _ => .int n
  | .real m k, _ => .real m k
  | .bool b, _ => .bool b
  | .str s, _ => .str s
  | .name n, _ => .name n
  | .ref i g, _ => .ref i g hD
  | .arr l, h => by rw [WF] at h; rw [objToks]; exact .arr (writes_seq hD l h)
  | .dict d, h => by
    rw [WF] at h
    obtain ⟨os, h1, h2⟩ := writes_items hD d h.2
    rw [objToks]
    exact .dict h1 h2 (dictOf_self d h.1)
theorem writes_seq {D : Dialect} (hD : D.refs = true) : (l : List Obj) → WFs l → WritesSeq D (seqToks l) l
  | [], _ => by rw [seqToks]; exact .nil
  | o :: os, h => by rw [WFs] at h; rw [seqToks]; exact .cons (writes_obj hD o h.1) (writes_seq hD os h.2)
theorem writes_items {D : Dialect} (hD : D.refs = true) : (d : List (Key × Obj)) → WFitems d →
    ∃ os, WritesSeq D (itemToks d) os ∧ Pairs os d
  | [], _ => ⟨[], by rw [itemToks]; exact .nil, .nil⟩
  | (k, v) :: d, h => by
    rw [WFitems] at h
    obtain ⟨⟨n, rfl⟩, h1, h2⟩ := h
    obtain ⟨os, h3, h4⟩ := writes_items hD d h2
    refine ⟨.name n :: v :: os, ?_, .cons (wf_not_null h1) rfl h4⟩
    rw [itemToks]
    have := WritesSeq.cons (Writes.name n) (.cons (writes_obj hD v h1) h3)
    simpa using this
end

mutual
theorem printable_obj : (o : Obj) → WF o → ∀ t ∈ objToks o, Printable t
  | .null, h => by simp [WF] at h
  | .kw _, h => by simp [WF] at h
  | .stream _ _, h => by simp [WF] at h
  | .int n, _ => by simp [objToks, Printable]
  | .real m k, _ => by simp [objToks, Printable]
  | .bool b, _ => by simp [objToks, Printable]
  | .str s, _ => by simp [objToks, Printable]
  | .name n, _ => by simp [objToks, Printable]
  | .ref i g, _ => by
    intro t ht
    simp only [objToks, List.mem_cons, List.not_mem_nil, or_false] at ht
    rcases ht with rfl | rfl | rfl
    · trivial
    · trivial
    · exact Or.inr ⟨82, [], rfl, by decide, by simp, by decide, by decide⟩
  | .arr l, h => by
    intro t ht
    rw [WF] at h
    simp only [objToks, List.mem_append, List.mem_cons, List.not_mem_nil, or_false] at ht
    rcases ht with (rfl | ht) | rfl
    · exact Or.inl (by decide)
    · exact printable_seq l h t ht
    · exact Or.inl (by decide)
  | .dict d, h => by
    intro t ht
    rw [WF] at h
    simp only [objToks, List.mem_append, List.mem_cons, List.not_mem_nil, or_false] at ht
    rcases ht with (rfl | ht) | rfl
    · exact Or.inl (by decide)
    · exact printable_items d h.2 t ht
    · exact Or.inl (by decide)
theorem printable_seq : (l : List Obj) → WFs l → ∀ t ∈ seqToks l, Printable t
  | [], _ => by simp [seqToks]
  | o :: os, h => by
    intro t ht
    rw [WFs] at h
    rw [seqToks, List.mem_append] at ht
    rcases ht with ht | ht
    · exact printable_obj o h.1 t ht
    · exact printable_seq os h.2 t ht
theorem printable_items : (d : List (Key × Obj)) → WFitems d → ∀ t ∈ itemToks d, Printable t
  | [], _ => by simp [itemToks]
  | (k, v) :: d, h => by
    intro t ht
    rw [WFitems] at h
    obtain ⟨⟨n, rfl⟩, h1, h2⟩ := h
    rw [itemToks, List.mem_append, List.mem_cons] at ht
    rcases ht with (rfl | ht) | ht
    · trivial
    · exact printable_obj v h1 t ht
    · exact printable_items d h2 t ht
end

end Pdf

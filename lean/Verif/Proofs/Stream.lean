import Verif.Proofs.FileParser
/-! Searching `endstream` line by line finds its first occurrence. -/

namespace Pdf
open Spec

theorem findSub_some {pat : Bytes} (hp : pat ≠ []) {w : Bytes} {i : Nat} :
    findSub pat w = some i ↔ pat <+: w.drop i ∧ ∀ j < i, ¬ pat <+: w.drop j := by
  induction w generalizing i with
  | nil => simp [findSub, hp]
  | cons c cs ih =>
    unfold findSub
    split
    · rename_i h
      have h' := List.isPrefixOf_iff_prefix.mp h
      constructor
      · intro e; simp only [Option.some.injEq] at e; subst e; exact ⟨h', by simp⟩
      · intro ⟨_, e⟩
        cases i with
        | zero => rfl
        | succ i => exact absurd h' (e 0 (by omega))
    · rename_i h
      have h' : ¬ pat <+: (c :: cs) := fun e => h (List.isPrefixOf_iff_prefix.mpr e)
      cases i with
      | zero => simp [h']
      | succ i =>
        have : (Option.map (· + 1) (findSub pat cs) = some (i + 1)) ↔ findSub pat cs = some i := by
          cases findSub pat cs <;> simp
        rw [this, ih]
        constructor
        · intro ⟨a, b⟩
          refine ⟨a, fun j hj => ?_⟩
          cases j with
          | zero => exact h'
          | succ j => exact b j (by omega)
        · intro ⟨a, b⟩
          exact ⟨a, fun j hj => b (j + 1) (by omega)⟩

theorem unfinished_suffix {a b : Bytes} (h : Unfinished (a ++ b)) : Unfinished b := by
  rcases h with h | ⟨body, hb, e⟩
  · exact Or.inl (noEol_append.mp h).2
  · rcases List.append_eq_append_iff.mp e with ⟨x, rfl, e'⟩ | ⟨x, rfl, e'⟩
    · exact Or.inr ⟨x, (noEol_append.mp hb).2, e'⟩
    · -- `b` is a suffix of `[13]`
      cases x with
      | nil => right; exact ⟨[], by simp [NoEol], by simpa using e'.symm⟩
      | cons y ys =>
        simp only [List.cons_append, List.cons.injEq] at e'
        have := List.append_eq_nil_iff.mp e'.2.symm
        left; rw [this.2]; simp [NoEol]

theorem noEol_kw : NoEol kwEndstream := by unfold NoEol; decide

/-- `w` starts with `x` and then `endstream`, and nowhere earlier is there an `endstream`. -/
def FirstEnd (x rest : Bytes) : Prop := ∀ j < x.length, ¬ kwEndstream <+: (x ++ kwEndstream ++ rest).drop j

theorem isLine_shape {l rest : Bytes} (h : IsLine l rest) : ∃ u v, l = u ++ v ∧ NoEol u ∧ v ≠ [] ∧ ∀ c ∈ v, c = 10 ∨ c = 13 := by
  cases h with
  | lf h => exact ⟨_, [10], rfl, h, by simp, by simp⟩
  | crlf h => exact ⟨_, [13, 10], rfl, h, by simp, by simp⟩
  | cr h _ => exact ⟨_, [13], rfl, h, by simp, by simp⟩

theorem scanU_first (fuel : Nat) (x rest : Bytes) (len : Nat) (acc : Bytes) (hf : x.length < fuel) (hx : FirstEnd x rest)
    (hr : ¬ Unfinished rest) : scanU fuel (x ++ kwEndstream ++ rest) len acc = (len + x.length, acc ++ x) := by
  induction fuel generalizing x len acc with
  | zero => omega
  | succ fuel ih =>
    have hs := takeLine_spec (x ++ kwEndstream ++ rest)
    unfold scanU
    cases ht : takeLine false (x ++ kwEndstream ++ rest) with
    | none => rw [ht] at hs; exact absurd (unfinished_suffix hs) hr
    | some q =>
      obtain ⟨l, r⟩ := q
      rw [ht] at hs
      obtain ⟨he, hl⟩ := hs
      dsimp only
      obtain ⟨u, v, hluv, hu, hv, hvv⟩ := isLine_shape hl
      rcases Nat.lt_or_ge x.length l.length with hlt | hge
      · -- the line contains the word
        have hlen : x.length + kwEndstream.length ≤ l.length := by
          rcases Nat.lt_or_ge l.length (x.length + kwEndstream.length) with hlt2 | hge2
          · exfalso
            have h1 : (x ++ kwEndstream ++ rest)[l.length - 1]? = l[l.length - 1]? := by
              rw [he, List.getElem?_append_left (by omega)]
            rw [List.append_assoc, List.getElem?_append_right (by omega), List.getElem?_append_left (by omega)] at h1
            have h2 : l[l.length - 1]? = v[v.length - 1]? := by
              have := List.length_pos_iff.mpr hv
              rw [hluv, List.getElem?_append_right (by simp; omega)]
              congr 1; simp; omega
            rw [h2] at h1
            have hvl := List.length_pos_iff.mpr hv
            rw [List.getElem?_eq_getElem (l := v) (by omega)] at h1
            have hm := List.mem_of_getElem? h1
            have := noEol_kw _ hm
            have h5 := hvv _ (List.getElem_mem (l := v) (n := v.length - 1) (by omega))
            rcases h5 with h5 | h5
            · exact this.1 h5
            · exact this.2 h5
          · exact hge2
        have hpre : x ++ kwEndstream <+: l := by
          have h1 : x ++ kwEndstream <+: x ++ kwEndstream ++ rest := List.prefix_append _ _
          rw [he] at h1
          exact List.prefix_of_prefix_length_le h1 (List.prefix_append l r) (by simpa using hlen)
        obtain ⟨t, rfl⟩ := hpre
        have hfi : findSub kwEndstream (x ++ kwEndstream ++ t) = some x.length := by
          rw [findSub_some (by decide)]
          refine ⟨by simp, fun j hj hp => hx j hj ?_⟩
          rw [he, List.drop_append_of_le_length (by simp; omega)]
          exact hp.trans (List.prefix_append _ _)
        rw [hfi]
        simp
      · -- the line is a part of `x`
        have hpl : l <+: x := by
          have h1 : l <+: x ++ kwEndstream ++ rest := by rw [he]; exact List.prefix_append _ _
          rw [List.append_assoc] at h1
          exact List.prefix_of_prefix_length_le h1 (List.prefix_append _ _) hge
        obtain ⟨x', rfl⟩ := hpl
        have hr2 : r = x' ++ kwEndstream ++ rest := by
          have := he
          simp only [List.append_assoc] at this ⊢
          exact (List.append_cancel_left this).symm
        have hnone : findSub kwEndstream l = none := by
          cases hq : findSub kwEndstream l with
          | none => rfl
          | some i =>
            exfalso
            have h1 := (findSub_some (by decide)).mp hq
            have hil : i < l.length := by
              have := h1.1.length_le
              have h9 : kwEndstream.length = 9 := rfl
              simp only [List.length_drop] at this; omega
            refine hx i (by simp; omega) ?_
            rw [show l ++ x' ++ kwEndstream ++ rest = l ++ (x' ++ kwEndstream ++ rest) by simp,
              List.drop_append_of_le_length (by omega)]
            exact h1.1.trans (List.prefix_append _ _)
        rw [hnone, hr2]
        dsimp only
        have hll : 0 < l.length := by
          rw [hluv]; have := List.length_pos_iff.mpr hv; simp; omega
        rw [ih x' _ _ (by simp at hf; omega) ?_]
        · simp [Nat.add_assoc]
        · intro j hj hp
          refine hx (l.length + j) (by simp; omega) ?_
          rw [show l ++ x' ++ kwEndstream ++ rest = l ++ (x' ++ kwEndstream ++ rest) by simp, List.drop_append,
            List.drop_eq_nil_of_le (by omega)]
          simpa using hp

end Pdf

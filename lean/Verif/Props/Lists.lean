import Verif.Model.Lists
import Verif.Spec.Lists
import Mathlib.Data.List.Basic
import Mathlib.Data.List.Nodup
import Mathlib.Data.List.Sort
import Mathlib.Order.Defs.LinearOrder
import Mathlib.Data.Int.Order.Basic
/-! Properties C56 (list utilities) and C57 (symbol interning). -/

namespace Pdf

/-! ### uniq -/

theorem uniqLoop_spec {α : Type} [DecidableEq α] (l pre done : List α) (h : ∀ x, x ∈ done ↔ x ∈ pre) :
    uniqLoop done l =
      (List.range l.length).filterMap fun i => l[i]?.bind fun x => if x ∈ pre ++ l.take i then none else some x := by
  induction l generalizing pre done with
  | nil => simp [uniqLoop]
  | cons a as ih =>
    rw [List.length_cons, List.range_succ_eq_map, List.filterMap_cons, List.filterMap_map]
    have e : (fun i => (a :: as)[i]?.bind fun x => if x ∈ pre ++ (a :: as).take i then none else some x) ∘ Nat.succ
        = fun i => as[i]?.bind fun x => if x ∈ (pre ++ [a]) ++ as.take i then none else some x := by
      funext i; simp
    rw [e]
    unfold uniqLoop
    by_cases hc : a ∈ done
    · have : a ∈ pre := (h a).1 hc
      simp only [hc, if_true, List.getElem?_cons_zero, Option.bind_some, List.take_zero, List.append_nil, this]
      apply ih
      intro x; simp only [List.mem_append, List.mem_singleton, h]
      constructor
      · exact Or.inl
      · rintro (h | rfl)
        · exact h
        · exact this
    · have : a ∉ pre := fun h' => hc ((h a).2 h')
      simp only [hc, if_false, List.getElem?_cons_zero, Option.bind_some, List.take_zero, List.append_nil, this]
      rw [ih (pre ++ [a])]
      intro x; simp [h, or_comm]

/-- **C56.** `uniq` yields the first occurrence of every item, in order. -/
theorem uniq_firsts {α : Type} [DecidableEq α] (l : List α) : uniq l = Spec.firstOccurrences l := by
  unfold uniq Spec.firstOccurrences
  rw [uniqLoop_spec l [] [] (by simp)]
  simp

theorem uniqLoop_mem {α : Type} [DecidableEq α] (l done : List α) (x : α) :
    x ∈ uniqLoop done l ↔ x ∈ l ∧ x ∉ done := by
  induction l generalizing done with
  | nil => simp [uniqLoop]
  | cons a as ih =>
    unfold uniqLoop
    by_cases h : a ∈ done
    · simp only [h, if_true, ih, List.mem_cons]
      constructor
      · rintro ⟨h1, h2⟩; exact ⟨.inr h1, h2⟩
      · rintro ⟨rfl | h1, h2⟩
        · exact absurd h h2
        · exact ⟨h1, h2⟩
    · simp only [h, if_false, List.mem_cons, ih, not_or]
      constructor
      · rintro (rfl | ⟨h1, -, h2⟩)
        · exact ⟨.inl rfl, h⟩
        · exact ⟨.inr h1, h2⟩
      · rintro ⟨rfl | h1, h2⟩
        · exact .inl rfl
        · by_cases e : x = a
          · exact .inl e
          · exact .inr ⟨h1, e, h2⟩

theorem uniqLoop_nodup {α : Type} [DecidableEq α] (l done : List α) : (uniqLoop done l).Nodup := by
  induction l generalizing done with
  | nil => simp [uniqLoop]
  | cons a as ih =>
    unfold uniqLoop
    split
    · exact ih _
    · exact List.nodup_cons.2 ⟨fun h => ((uniqLoop_mem _ _ _).1 h).2 (by simp), ih _⟩

/-- **C56.** The items of `uniq(l)` are those of `l`, each of them once. -/
theorem uniq_items {α : Type} [DecidableEq α] (l : List α) : (uniq l).Nodup ∧ ∀ x, x ∈ uniq l ↔ x ∈ l :=
  ⟨uniqLoop_nodup _ _, fun x => by rw [uniq, uniqLoop_mem]; simp⟩

example : uniq [3, 1, 3, 2, 1] = [3, 1, 2] := by decide

/-! ### choplist -/

theorem choplistLoop_spec {α : Type} (n : Nat) (hn : 0 < n) (l r : List α) (hr : r.length < n) :
    (∀ g ∈ choplistLoop n r l, g.length = n) ∧
    ∃ tail, tail.length < n ∧ r ++ l = (choplistLoop (n : Int) r l).flatten ++ tail := by
  induction l generalizing r with
  | nil => exact ⟨by simp [choplistLoop], r, hr, by simp [choplistLoop]⟩
  | cons a as ih =>
    unfold choplistLoop
    by_cases h : (((r ++ [a]).length : Nat) : Int) = (n : Int)
    · rw [if_pos h]
      obtain ⟨h1, tail, h2, h3⟩ := ih [] (by simpa using hn)
      refine ⟨?_, tail, h2, ?_⟩
      · intro g hg
        rcases List.mem_cons.1 hg with rfl | hg
        · exact_mod_cast h
        · exact h1 g hg
      · simp only [List.nil_append] at h3
        conv_lhs => rw [h3]
        simp
    · rw [if_neg h]
      obtain ⟨h1, tail, h2, h3⟩ := ih (r ++ [a]) (by
        have h' : (r ++ [a]).length ≠ n := fun e => h (by exact_mod_cast e)
        simp only [List.length_append, List.length_singleton] at *; omega)
      exact ⟨h1, tail, h2, by rw [← h3]; simp⟩

/-- **C56.** `choplist(n, l)` for a positive `n` cuts `l` into consecutive groups of `n` items; what is dropped at the end is
shorter than `n`. -/
theorem choplist_groups {α : Type} (n : Nat) (hn : 0 < n) (l : List α) :
    (∀ g ∈ choplist n l, g.length = n) ∧ ∃ tail, tail.length < n ∧ l = (choplist (n : Int) l).flatten ++ tail := by
  simpa [choplist] using choplistLoop_spec n hn l [] (by simpa using hn)

/-- **C56.** Nothing is dropped from a list whose length is a multiple of `n`. -/
theorem choplist_exact {α : Type} (n : Nat) (hn : 0 < n) (l : List α) (h : n ∣ l.length) :
    (choplist (n : Int) l).flatten = l := by
  obtain ⟨h1, tail, h2, h3⟩ := choplist_groups n hn l
  have e : l.length = n * (choplist (n : Int) l).length + tail.length := by
    conv_lhs => rw [h3]
    rw [List.length_append, List.length_flatten]
    have : (choplist (n : Int) l).map List.length = List.replicate (choplist (n : Int) l).length n :=
      List.eq_replicate_iff.2 ⟨by simp, by simpa using h1⟩
    rw [this, List.sum_replicate_nat, Nat.mul_comm]
  rw [e] at h
  have h' := (Nat.dvd_add_right (Nat.dvd_mul_right n _)).1 h
  have h0 : tail.length = 0 := Nat.eq_zero_of_dvd_of_lt h' h2
  rw [List.length_eq_zero_iff.1 h0, List.append_nil] at h3
  exact h3.symm

/-- **C56.** With `n = 0` or a negative `n` nothing is yielded. -/
theorem choplist_nonpos {α : Type} (n : Int) (hn : n ≤ 0) (l : List α) : choplist n l = [] := by
  have : ∀ r : List α, choplistLoop n r l = [] := by
    induction l with
    | nil => simp [choplistLoop]
    | cons a as ih =>
      intro r
      rw [choplistLoop, if_neg, ih]
      simp only [List.length_append, List.length_singleton]; omega
  exact this []

example : choplist 2 [1, 2, 3, 4, 5] = [[1, 2], [3, 4]] := by decide

/-! ### pick -/

theorem pickLoop_spec {α κ : Type} [LinearOrder κ] (f : α → κ) (l : List α) (b : α) :
    ∃ m, pickLoop f (some (f b, b)) l = some (f m, m) ∧ ∃ pre post, b :: l = pre ++ m :: post ∧
      (∀ x ∈ pre, f x < f m) ∧ ∀ x ∈ post, f x ≤ f m := by
  induction l generalizing b with
  | nil => exact ⟨b, rfl, [], [], rfl, by simp, by simp⟩
  | cons a as ih =>
    unfold pickLoop
    by_cases h : f b < f a
    · rw [if_pos h]
      obtain ⟨m, h1, pre, post, h2, h3, h4⟩ := ih a
      refine ⟨m, h1, b :: pre, post, by rw [h2]; rfl, ?_, h4⟩
      intro x hx
      rcases List.mem_cons.1 hx with rfl | hx
      · have : f a ≤ f m := by
          have ha : a ∈ pre ++ m :: post := h2 ▸ List.mem_cons_self
          rcases List.mem_append.1 ha with ha | ha
          · exact le_of_lt (h3 a ha)
          · rcases List.mem_cons.1 ha with rfl | ha
            · exact le_refl _
            · exact h4 a ha
        exact lt_of_lt_of_le h this
      · exact h3 x hx
    · rw [if_neg h]
      have h := not_lt.1 h
      obtain ⟨m, h1, pre, post, h2, h3, h4⟩ := ih b
      refine ⟨m, h1, ?_⟩
      cases pre with
      | nil =>
        simp only [List.nil_append, List.cons.injEq] at h2
        obtain ⟨rfl, rfl⟩ := h2
        refine ⟨[], a :: as, rfl, by simp, ?_⟩
        intro x hx
        rcases List.mem_cons.1 hx with rfl | hx
        · exact h
        · exact h4 x hx
      | cons p pre =>
        simp only [List.cons_append, List.cons.injEq] at h2
        obtain ⟨rfl, rfl⟩ := h2
        refine ⟨b :: a :: pre, post, rfl, ?_, h4⟩
        intro x hx
        have hb := h3 b (by simp)
        simp only [List.mem_cons] at hx
        rcases hx with rfl | rfl | hx
        · exact hb
        · exact lt_of_le_of_lt h hb
        · exact h3 x (by simp [hx])

/-- **C56.** `pick` of a non-empty sequence returns an item of maximal score, the first one of that score. -/
theorem pick_first_max {α κ : Type} [LinearOrder κ] (f : α → κ) (l : List α) (d : Option α) (hl : l ≠ []) :
    ∃ m, pick l f d = some m ∧ ∃ pre post, l = pre ++ m :: post ∧ (∀ x ∈ pre, f x < f m) ∧ ∀ x ∈ post, f x ≤ f m := by
  cases l with
  | nil => exact absurd rfl hl
  | cons a as =>
    obtain ⟨m, h1, h2⟩ := pickLoop_spec f as a
    exact ⟨m, by unfold pick pickLoop; rw [h1], h2⟩

/-- **C56.** `pick` of an empty sequence returns the default. -/
theorem pick_empty {α κ : Type} [LinearOrder κ] (f : α → κ) (d : Option α) : pick [] f d = d := rfl

example : pick [(1, "a"), (3, "b"), (3, "c")] Prod.fst = some (3, "b") := by decide

/-! ### csort -/

theorem lastIndex_absent {α : Type} [DecidableEq α] (x : α) (l : List α) (h : x ∉ l) (i r : Nat) : lastIndex x i r l = r := by
  induction l generalizing i r with
  | nil => rfl
  | cons a as ih =>
    have h1 : a ≠ x := fun e => h (by simp [e])
    have h2 : x ∉ as := fun e => h (by simp [e])
    rw [lastIndex, if_neg h1, ih h2]

theorem lastIndex_nodup {α : Type} [DecidableEq α] (l : List α) (h : l.Nodup) (i r : Nat) (j : Nat) (hj : j < l.length) :
    lastIndex l[j] i r l = i + j := by
  induction l generalizing i r j with
  | nil => simp at hj
  | cons a as ih =>
    have h' := List.nodup_cons.1 h
    cases j with
    | zero => simp only [List.getElem_cons_zero, lastIndex, if_true]; rw [lastIndex_absent a as h'.1]; rfl
    | succ j =>
      simp only [List.getElem_cons_succ, lastIndex]
      rw [ih h'.2 (i + 1) _ j (by simpa using hj)]; omega

theorem csortLe_iff {α κ : Type} [DecidableEq α] [LinearOrder κ] (objs : List α) (key : α → κ) (a b : α) :
    csortLe objs key a b = true ↔
      key a < key b ∨ (key a = key b ∧ lastIndex a 0 0 objs ≤ lastIndex b 0 0 objs) := by
  unfold csortLe
  by_cases h1 : key a ≤ key b <;> by_cases h2 : key b ≤ key a
  · have e : key a = key b := le_antisymm h1 h2
    simp [e]
  · have e : key a < key b := not_le.1 h2
    simp [h1, h2, e]
  · have e : key b < key a := not_le.1 h1
    simp [h1, not_lt.2 h2, ne_of_gt e]
  · exact absurd (le_of_not_ge h1) h2

theorem csort_sorted {α κ : Type} [DecidableEq α] [LinearOrder κ] (objs : List α) (key : α → κ) :
    (csort objs key).Pairwise fun a b => csortLe objs key a b = true := by
  unfold csort
  apply List.pairwise_mergeSort
  · intro a b c h1 h2
    rw [csortLe_iff] at *
    rcases h1 with h1 | ⟨h1, h1'⟩ <;> rcases h2 with h2 | ⟨h2, h2'⟩
    · exact .inl (h1.trans h2)
    · exact .inl (h2 ▸ h1)
    · exact .inl (h1 ▸ h2)
    · exact .inr ⟨h1.trans h2, h1'.trans h2'⟩
  · intro a b
    rw [Bool.or_eq_true, csortLe_iff, csortLe_iff]
    rcases lt_trichotomy (key a) (key b) with h | h | h
    · exact .inl (.inl h)
    · rcases Nat.le_total (lastIndex a 0 0 objs) (lastIndex b 0 0 objs) with h' | h'
      · exact .inl (.inr ⟨h, h'⟩)
      · exact .inr (.inr ⟨h.symm, h'⟩)
    · exact .inr (.inl h)

/-- The positions of the items of a list without repetition increase along the list. -/
theorem pairwise_lastIndex {α : Type} [DecidableEq α] (l : List α) (h : l.Nodup) :
    l.Pairwise fun a b => lastIndex a 0 0 l < lastIndex b 0 0 l := by
  rw [List.pairwise_iff_getElem]
  intro i j hi hj hij
  rw [lastIndex_nodup l h 0 0 i hi, lastIndex_nodup l h 0 0 j hj]
  omega

/-- **C56.** `csort` of a list without repeated items is a stable sort by key. -/
theorem csort_stable {α κ : Type} [DecidableEq α] [LinearOrder κ] (l : List α) (key : α → κ) (h : l.Nodup) :
    Spec.StableSort l key (csort l key) := by
  have hp : (csort l key).Perm l := List.mergeSort_perm l _
  refine ⟨hp, ?_, ?_⟩
  · refine (csort_sorted l key).imp ?_
    intro a b hab
    rcases (csortLe_iff l key a b).1 hab with h | h
    · exact le_of_lt h
    · exact le_of_eq h.1
  · intro k
    apply List.Perm.eq_of_pairwise (le := fun a b => lastIndex a 0 0 l ≤ lastIndex b 0 0 l)
    · intro a b ha hb h1 h2
      have ha : a ∈ l := hp.mem_iff.1 (List.mem_filter.1 ha).1
      have hb : b ∈ l := (List.mem_filter.1 hb).1
      obtain ⟨i, hi, rfl⟩ := List.getElem_of_mem ha
      obtain ⟨j, hj, rfl⟩ := List.getElem_of_mem hb
      rw [lastIndex_nodup l h 0 0 i hi, lastIndex_nodup l h 0 0 j hj] at *
      have : i = j := by omega
      subst this; rfl
    · have := (csort_sorted l key).filter fun x => decide (key x = k)
      refine List.Pairwise.imp_of_mem ?_ this
      intro a b ha hb hab
      have ha : key a = k := by simpa using (List.mem_filter.1 ha).2
      have hb : key b = k := by simpa using (List.mem_filter.1 hb).2
      rcases (csortLe_iff l key a b).1 hab with h | h
      · rw [ha, hb] at h; exact absurd h (lt_irrefl _)
      · exact h.2
    · exact ((pairwise_lastIndex l h).imp (fun h => le_of_lt h)).filter _
    · exact hp.filter _

/-- **C56.** A stable sort has only one possible result, so `csort_stable` determines `csort`. -/
theorem stable_unique {α κ : Type} [LinearOrder κ] (l : List α) (key : α → κ) (r₁ r₂ : List α)
    (h₁ : Spec.StableSort l key r₁) (h₂ : Spec.StableSort l key r₂) : r₁ = r₂ := by
  have key_eq : ∀ k, (r₁.filter fun x => decide (key x = k)) = r₂.filter fun x => decide (key x = k) :=
    fun k => (h₁.order_kept k).trans (h₂.order_kept k).symm
  have o1 := h₁.ordered
  have o2 := h₂.ordered
  clear h₁ h₂
  induction r₁ generalizing r₂ with
  | nil =>
    cases r₂ with
    | nil => rfl
    | cons b bs => simpa using (key_eq (key b)).symm
  | cons a as ih =>
    cases r₂ with
    | nil => simpa using key_eq (key a)
    | cons b bs =>
      have hab : key a = key b := by
        have m1 : a ∈ (b :: bs) := by
          have : a ∈ (a :: as).filter fun x => decide (key x = key a) := by simp
          rw [key_eq (key a)] at this
          exact (List.mem_filter.1 this).1
        have m2 : b ∈ (a :: as) := by
          have : b ∈ (b :: bs).filter fun x => decide (key x = key b) := by simp
          rw [← key_eq (key b)] at this
          exact (List.mem_filter.1 this).1
        apply le_antisymm
        · rcases List.mem_cons.1 m2 with rfl | m2
          · exact le_refl _
          · exact (List.pairwise_cons.1 o1).1 b m2
        · rcases List.mem_cons.1 m1 with rfl | m1
          · exact le_refl _
          · exact (List.pairwise_cons.1 o2).1 a m1
      have e := key_eq (key a)
      simp only [List.filter_cons, decide_true, if_true, hab] at e
      obtain ⟨rfl, -⟩ := List.cons.inj e
      congr 1
      apply ih bs
      · intro k
        have e := key_eq k
        simp only [List.filter_cons] at e
        by_cases hk : key a = k
        · simpa [hk] using e
        · simpa [hk] using e
      · exact (List.pairwise_cons.1 o1).2
      · exact (List.pairwise_cons.1 o2).2

example : Spec.StableSort [(2, 'a'), (1, 'b'), (2, 'c'), (1, 'd')] Prod.fst (csort [(2, 'a'), (1, 'b'), (2, 'c'), (1, 'd')] Prod.fst) :=
  csort_stable _ _ (by decide)

/-- **C56, limit.** With repeated items `csort` is not stable: the first of two equal items moves behind the items between
them. -/
theorem csort_repeated : csort ["a", "b", "a"] (fun _ => (0 : Nat)) = ["b", "a", "a"] ∧
    ¬ Spec.StableSort ["a", "b", "a"] (fun _ => (0 : Nat)) (csort ["a", "b", "a"] fun _ => (0 : Nat)) := by
  have e : csort ["a", "b", "a"] (fun _ => (0 : Nat)) = ["b", "a", "a"] := by
    simp [csort, List.mergeSort, List.MergeSort.Internal.splitInTwo, List.merge, csortLe, lastIndex]
  refine ⟨e, fun h => ?_⟩
  have := h.order_kept 0
  rw [e] at this
  revert this
  decide

/-! ### Symbols -/

/-- What holds of a table reached from the empty one by calls of `intern`. -/
structure SymbolTable.Ok {ν : Type} [DecidableEq ν] (t : SymbolTable ν) : Prop where
  names : ∀ n i, t.lookup n = some i → t.objects[i]? = some n
  all : ∀ i n, t.objects[i]? = some n → t.lookup n = some i

theorem SymbolTable.ok_empty {ν : Type} [DecidableEq ν] : ({} : SymbolTable ν).Ok :=
  ⟨by simp [SymbolTable.lookup], by simp⟩

theorem SymbolTable.lookup_cons {ν : Type} [DecidableEq ν] (t : SymbolTable ν) (a : ν) (k : Nat) (o : List ν) (n : ν) :
    (⟨(a, k) :: t.dict, o⟩ : SymbolTable ν).lookup n = if a = n then some k else t.lookup n := by
  unfold SymbolTable.lookup
  by_cases h : a = n <;> simp [h]

theorem SymbolTable.intern_facts {ν : Type} [DecidableEq ν] (t : SymbolTable ν) (h : t.Ok) (name : ν) :
    (t.intern name).2.Ok ∧ (t.intern name).2.nameOf (t.intern name).1 = some name ∧
    (∀ i n, t.nameOf i = some n → (t.intern name).2.nameOf i = some n) ∧
    (∀ i, t.lookup name = some i → (t.intern name).1 = i ∧ (t.intern name).2 = t) := by
  unfold SymbolTable.intern
  cases hl : t.lookup name with
  | some i => exact ⟨h, h.names _ _ hl, fun _ _ h => h, by rintro j hj; cases hj; exact ⟨rfl, rfl⟩⟩
  | none =>
    refine ⟨⟨?_, ?_⟩, by simp [nameOf], ?_, by simp⟩
    · intro n i hi
      rw [lookup_cons] at hi
      split at hi
      · rename_i e; cases hi; simp [e]
      · have := h.names n i hi
        have hlt : i < t.objects.length := by
          by_contra hc; rw [List.getElem?_eq_none (by omega)] at this; simp at this
        show (t.objects ++ [name])[i]? = some n
        rw [List.getElem?_append_left hlt]; exact this
    · intro i n hi
      rw [lookup_cons]
      change (t.objects ++ [name])[i]? = some n at hi
      by_cases hlt : i < t.objects.length
      · rw [List.getElem?_append_left hlt] at hi
        have := h.all i n hi
        rw [if_neg, this]
        rintro rfl; rw [hl] at this; simp at this
      · rw [List.getElem?_append_right (by omega)] at hi
        have : i - t.objects.length = 0 := by
          by_contra hc
          rw [List.getElem?_eq_none (by simp; omega)] at hi; simp at hi
        rw [this] at hi
        simp only [List.getElem?_cons_zero, Option.some.injEq] at hi
        rw [if_pos hi]; congr 1; omega
    · intro i n hi
      have hlt : i < t.objects.length := by
        by_contra hc
        unfold nameOf at hi
        rw [List.getElem?_eq_none (by omega)] at hi; simp at hi
      show (t.objects ++ [name])[i]? = some n
      rw [List.getElem?_append_left hlt]; exact hi

theorem SymbolTable.internAll_facts {ν : Type} [DecidableEq ν] (names : List ν) (t : SymbolTable ν) (h : t.Ok) :
    (t.internAll names).2.Ok ∧ (∀ i n, t.nameOf i = some n → (t.internAll names).2.nameOf i = some n) ∧
    (t.internAll names).1.map (t.internAll names).2.nameOf = names.map some := by
  induction names generalizing t with
  | nil => exact ⟨h, fun _ _ h => h, rfl⟩
  | cons a as ih =>
    obtain ⟨h1, h2, h3, -⟩ := t.intern_facts h a
    obtain ⟨i1, i2, i3⟩ := ih _ h1
    refine ⟨i1, fun i n hi => i2 i n (h3 i n hi), ?_⟩
    simp only [internAll, List.map_cons, i3, List.cons.injEq, and_true]
    exact i2 _ _ h2

/-- **C57.** In every sequence of calls of `intern` on a fresh table, two calls return the same object exactly when they were
given the same name. -/
theorem intern_identity {ν : Type} [DecidableEq ν] (names : List ν) (i j : Nat) (hi : i < names.length)
    (hj : j < names.length) :
    (({} : SymbolTable ν).internAll names).1[i]? = (({} : SymbolTable ν).internAll names).1[j]? ↔ names[i] = names[j] := by
  obtain ⟨h1, -, h3⟩ := SymbolTable.internAll_facts names ({} : SymbolTable ν) SymbolTable.ok_empty
  have gi : (({} : SymbolTable ν).internAll names).1[i]?.map (({} : SymbolTable ν).internAll names).2.nameOf = some (some names[i]) := by
    rw [← List.getElem?_map, h3]; simp [hi]
  have gj : (({} : SymbolTable ν).internAll names).1[j]?.map (({} : SymbolTable ν).internAll names).2.nameOf = some (some names[j]) := by
    rw [← List.getElem?_map, h3]; simp [hj]
  constructor
  · intro e
    rw [e, gj] at gi
    simpa using gi.symm
  · intro e
    rw [Option.map_eq_some_iff] at gi gj
    obtain ⟨a, ha, ha'⟩ := gi
    obtain ⟨b, hb, hb'⟩ := gj
    rw [ha, hb]
    have := h1.all _ _ ha'
    rw [e, h1.all _ _ hb'] at this
    exact this.symm

/-- **C57.** After every sequence of calls the object that each call returned still has the name it was created for. -/
theorem intern_names {ν : Type} [DecidableEq ν] (names : List ν) :
    (({} : SymbolTable ν).internAll names).1.map (({} : SymbolTable ν).internAll names).2.nameOf = names.map some :=
  (SymbolTable.internAll_facts names _ SymbolTable.ok_empty).2.2

example : (({} : SymbolTable String).internAll ["q", "Q", "q", "re", "Q"]).1 = [0, 1, 0, 2, 1] := by decide

end Pdf

import Verif.Spec.Plane
import Mathlib.Tactic.Linarith
import Mathlib.Tactic.NormNum
import Mathlib.Data.List.Nodup
import Mathlib.Data.List.Induction
/-! Property C55 (spatial index). -/

namespace Pdf

variable {α : Type} [DecidableEq α]

/-! ### Histories -/

theorem live_nil (x : α) : ¬ Spec.Live [] x := by
  rintro ⟨pre, post, h, -⟩; simp at h

theorem live_add (ops : List (PlaneOp α)) (y x : α) : Spec.Live (ops ++ [.add y]) x ↔ x = y ∨ Spec.Live ops x := by
  constructor
  · rintro ⟨pre, post, h, hn⟩
    rcases List.eq_nil_or_concat post with rfl | ⟨post', o, rfl⟩
    · have := List.append_inj_right' h rfl
      simp only [List.cons.injEq, PlaneOp.add.injEq, and_true] at this
      exact .inl this.symm
    · right
      have h : ops ++ [.add y] = (pre ++ .add x :: post') ++ [o] := by rw [h]; simp
      have h1 := List.append_inj_left' h rfl
      exact ⟨pre, post', h1, fun hc => hn (by simp [hc])⟩
  · rintro (rfl | ⟨pre, post, rfl, hn⟩)
    · exact ⟨ops, [], rfl, by simp⟩
    · exact ⟨pre, post ++ [.add y], by simp, by simpa using hn⟩

theorem live_remove (ops : List (PlaneOp α)) (y x : α) :
    Spec.Live (ops ++ [.remove y]) x ↔ x ≠ y ∧ Spec.Live ops x := by
  constructor
  · rintro ⟨pre, post, h, hn⟩
    rcases List.eq_nil_or_concat post with rfl | ⟨post', o, rfl⟩
    · have := List.append_inj_right' h rfl
      simp at this
    · have h : ops ++ [.remove y] = (pre ++ .add x :: post') ++ [o] := by rw [h]; simp
      have h1 := List.append_inj_left' h rfl
      have h2 := List.append_inj_right' h rfl
      simp only [List.cons.injEq, and_true] at h2
      subst h2
      exact ⟨fun e => hn (by simp [e]), pre, post', h1, fun hc => hn (by simp [hc])⟩
  · rintro ⟨hne, pre, post, rfl, hn⟩
    refine ⟨pre, post ++ [.remove y], by simp, ?_⟩
    simpa using ⟨hn, hne⟩

theorem usual_snoc {box : α → PBox} {ops : List (PlaneOp α)} {o : PlaneOp α} (h : Spec.Usual box (ops ++ [o])) :
    Spec.Usual box ops ∧ ∀ x, o = .add x → Spec.Proper (box x) ∧ ¬ Spec.Live ops x := by
  constructor
  · rintro pre x post rfl
    exact h pre x (post ++ [o]) (by simp)
  · rintro x rfl
    exact h ops x [] rfl

/-! ### Cells -/

theorem mem_pyRange (a b c : Int) : c ∈ pyRange a b ↔ a ≤ c ∧ c < b := by
  unfold pyRange
  rw [List.mem_map]
  constructor
  · rintro ⟨i, hi, rfl⟩
    have := List.mem_range.1 hi
    omega
  · rintro ⟨h1, h2⟩
    exact ⟨(c - a).toNat, List.mem_range.2 (by omega), by omega⟩

theorem pyRange_nodup (a b : Int) : (pyRange a b).Nodup := by
  unfold pyRange
  exact List.Nodup.map (fun i j h => by simpa using h) List.nodup_range

theorem pyTrunc_mono {a b : ℚ} (h : a ≤ b) : pyTrunc a ≤ pyTrunc b := by
  unfold pyTrunc
  by_cases h1 : 0 ≤ a
  · rw [if_pos h1, if_pos (h1.trans h)]; exact Int.floor_mono h
  · rw [if_neg h1]
    by_cases h2 : 0 ≤ b
    · rw [if_pos h2]
      have : ⌈a⌉ ≤ 0 := Int.ceil_le.2 (by push_cast; linarith)
      have : 0 ≤ ⌊b⌋ := Int.floor_nonneg.2 h2
      omega
    · rw [if_neg h2]; exact Int.ceil_mono h

/-- Truncation commutes with the addition of a natural number on these numbers. -/
def Nice (q : ℚ) : Prop := 0 ≤ q ∨ ∃ z : Int, q = z

theorem pyTrunc_add {q : ℚ} (h : Nice q) (d : Nat) : pyTrunc (q + d) = pyTrunc q + d := by
  rcases h with h | ⟨z, rfl⟩
  · unfold pyTrunc
    rw [if_pos h, if_pos (by positivity), Int.floor_add_natCast]
  · have : ∀ w : Int, pyTrunc (w : ℚ) = w := by intro w; unfold pyTrunc; split <;> simp
    rw [this]
    have e : ((z : ℚ) + (d : ℚ)) = ((z + d : Int) : ℚ) := by push_cast; rfl
    rw [e, this]

/-- The bounds of the cell ranges of two numbers in the right order. -/
theorem cell_lt {lo hi : ℚ} (h : lo < hi) (hn : Nice hi) (d : Nat) (hd : 0 < d) :
    pyTrunc lo / (d : Int) < pyTrunc (hi + d) / (d : Int) := by
  rw [pyTrunc_add hn, Int.add_ediv_of_dvd_right (dvd_refl _), Int.ediv_self (by omega)]
  have := Int.ediv_le_ediv (c := (d : Int)) (by omega) (pyTrunc_mono (le_of_lt h))
  omega

theorem drange_ok {a b : ℚ} (h : a < b) (d : Nat) :
    drange a b d = .ok (pyRange (pyTrunc a / (d : Int)) (pyTrunc (b + d) / (d : Int))) := by
  unfold drange; rw [if_pos h]

/-- Two ranges that overlap have a common cell. -/
theorem drange_meet {a0 a1 b0 b1 : ℚ} (ha : a0 < a1) (hb : b0 < b1) (hab : a0 < b1) (hba : b0 < a1) (na : Nice a1) (nb : Nice b1)
    (d : Nat) (hd : 0 < d) :
    ∃ c, c ∈ pyRange (pyTrunc a0 / (d : Int)) (pyTrunc (a1 + d) / (d : Int)) ∧
      c ∈ pyRange (pyTrunc b0 / (d : Int)) (pyTrunc (b1 + d) / (d : Int)) := by
  have h1 := cell_lt ha na d hd
  have h2 := cell_lt hb nb d hd
  have h3 := cell_lt hab nb d hd
  have h4 := cell_lt hba na d hd
  refine ⟨max (pyTrunc a0 / (d : Int)) (pyTrunc b0 / (d : Int)), ?_, ?_⟩ <;> rw [mem_pyRange] <;> omega

/-- The cells of a box that overlaps the plane (utils/generic.py:183-185). -/
def cellsOf (P : PBox) (d : Nat) (b : PBox) : List (Int × Int) :=
  (pyRange (pyTrunc (max P.y0 b.y0) / (d : Int)) (pyTrunc (min P.y1 b.y1 + d) / (d : Int))).flatMap fun y =>
    (pyRange (pyTrunc (max P.x0 b.x0) / (d : Int)) (pyTrunc (min P.x1 b.x1 + d) / (d : Int))).map fun x => (x, y)

theorem mem_cellsOf (P : PBox) (d : Nat) (b : PBox) (c : Int × Int) :
    c ∈ cellsOf P d b ↔ c.1 ∈ pyRange (pyTrunc (max P.x0 b.x0) / (d : Int)) (pyTrunc (min P.x1 b.x1 + d) / (d : Int)) ∧
      c.2 ∈ pyRange (pyTrunc (max P.y0 b.y0) / (d : Int)) (pyTrunc (min P.y1 b.y1 + d) / (d : Int)) := by
  obtain ⟨x, y⟩ := c
  unfold cellsOf
  rw [List.mem_flatMap]
  constructor
  · rintro ⟨y', hy, hm⟩
    obtain ⟨x', hx, e⟩ := List.mem_map.1 hm
    cases e
    exact ⟨hx, hy⟩
  · rintro ⟨hx, hy⟩
    exact ⟨y, hy, List.mem_map.2 ⟨x, hx, rfl⟩⟩

theorem cellsOf_nodup (P : PBox) (d : Nat) (b : PBox) : (cellsOf P d b).Nodup := by
  unfold cellsOf
  rw [List.nodup_flatMap]
  constructor
  · intro y _
    exact (pyRange_nodup _ _).map fun a b h => by simpa using h
  · refine (pyRange_nodup _ _).imp ?_
    intro a b hab
    rw [Function.onFun, List.disjoint_left]
    rintro ⟨x, y⟩ h1 h2
    obtain ⟨_, _, e1⟩ := List.mem_map.1 h1
    obtain ⟨_, _, e2⟩ := List.mem_map.1 h2
    cases e1; cases e2; exact hab rfl

theorem getrange_outside (p : Plane α) (b : PBox) (hb : ¬ Spec.Overlap b p.bbox) : p.getrange b = .ok [] := by
  unfold Plane.getrange
  rw [if_pos]
  by_contra hc
  push Not at hc
  exact hb ⟨hc.2.1, hc.1, hc.2.2.2, hc.2.2.1⟩

theorem getrange_inside (p : Plane α) (b : PBox) (hP : Spec.Proper p.bbox) (hp : Spec.Proper b) (hb : Spec.Overlap b p.bbox) :
    p.getrange b = .ok (cellsOf p.bbox p.gridsize b) := by
  obtain ⟨h1, h2, h3, h4⟩ := hb
  obtain ⟨p1, p2⟩ := hp
  obtain ⟨P1, P2⟩ := hP
  unfold Plane.getrange
  rw [if_neg (by push Not; exact ⟨h2, h1, h4, h3⟩),
    drange_ok (by rw [max_lt_iff, lt_min_iff, lt_min_iff]; exact ⟨⟨P2, h4⟩, ⟨h3, p2⟩⟩),
    drange_ok (by rw [max_lt_iff, lt_min_iff, lt_min_iff]; exact ⟨⟨P1, h2⟩, ⟨h1, p1⟩⟩)]
  rfl

/-! ### The grid -/

theorem mem_gridAdd (ks : List (Int × Int)) (g : Int × Int → List α) (o x : α) (c : Int × Int) :
    x ∈ gridAdd g o ks c ↔ x ∈ g c ∨ (x = o ∧ c ∈ ks) := by
  induction ks generalizing g with
  | nil => simp [gridAdd]
  | cons k ks ih =>
    rw [gridAdd, ih]
    by_cases h : c = k
    · simp only [h, if_true, List.mem_append, List.mem_singleton, List.mem_cons, true_or, and_true]; tauto
    · simp only [h, if_false, List.mem_cons, false_or]

theorem nodup_gridAdd (ks : List (Int × Int)) (hk : ks.Nodup) (g : Int × Int → List α) (o : α)
    (hg : ∀ c, (g c).Nodup) (ho : ∀ c ∈ ks, o ∉ g c) (c : Int × Int) : (gridAdd g o ks c).Nodup := by
  induction ks generalizing g with
  | nil => exact hg c
  | cons k ks ih =>
    have hk' := List.nodup_cons.1 hk
    rw [gridAdd]
    apply ih hk'.2
    · intro c'
      by_cases h : c' = k
      · simp only [h, if_true]
        refine List.nodup_append.2 ⟨hg k, by simp, ?_⟩
        intro a ha b hb e
        rw [List.mem_singleton] at hb
        subst hb; subst e
        exact ho k (by simp) ha
      · simp only [h, if_false]; exact hg c'
    · intro c' hc'
      have : c' ≠ k := fun e => hk'.1 (e ▸ hc')
      simp only [this, if_false]
      exact ho c' (by simp [hc'])

theorem gridRemove_spec (ks : List (Int × Int)) (g : Int × Int → List α) (o : α) (hg : ∀ c, (g c).Nodup) (c : Int × Int) :
    (gridRemove g o ks c).Nodup ∧ ∀ x, x ∈ gridRemove g o ks c ↔ x ∈ g c ∧ ¬ (x = o ∧ c ∈ ks) := by
  induction ks generalizing g with
  | nil => simp [gridRemove, hg c]
  | cons k ks ih =>
    rw [gridRemove]
    have := ih (fun c => if c = k then (g c).erase o else g c) (by
      intro c'
      by_cases h : c' = k
      · simp only [h, if_true]; exact (hg k).erase _
      · simp only [h, if_false]; exact hg c')
    refine ⟨this.1, fun x => ?_⟩
    rw [this.2]
    by_cases h : c = k
    · simp only [h, if_true, List.mem_cons, true_or, and_true, (hg k).mem_erase_iff]; tauto
    · simp only [h, if_false, List.mem_cons, false_or]

/-! ### The invariant -/

/-- What is true of a plane after a usual history. -/
structure PlaneInv (box : α → PBox) (P : PBox) (d : Nat) (ops : List (PlaneOp α)) (p : Plane α) : Prop where
  bbox : p.bbox = P
  gridsize : p.gridsize = d
  objs : ∀ x, x ∈ p.objs ↔ Spec.Live ops x
  objs_nodup : p.objs.Nodup
  proper : ∀ x, Spec.Live ops x → Spec.Proper (box x)
  grid : ∀ x c, x ∈ p.grid c ↔ Spec.Live ops x ∧ Spec.Overlap (box x) P ∧ c ∈ cellsOf P d (box x)
  grid_nodup : ∀ c, (p.grid c).Nodup

theorem history_inv (box : α → PBox) (P : PBox) (hP : Spec.Proper P) (d : Nat) (ops : List (PlaneOp α))
    (h : Spec.Usual box ops) : PlaneInv box P d ops (Plane.history box P d ops) := by
  induction ops using List.reverseRecOn with
  | nil => exact ⟨rfl, rfl, by simp [Plane.history, live_nil], by simp [Plane.history], fun x h => absurd h (live_nil x),
      by simp [Plane.history, live_nil], by simp [Plane.history]⟩
  | append_singleton ops o ih =>
    obtain ⟨hu, ho⟩ := usual_snoc h
    have ih := ih hu
    have e : Plane.history box P d (ops ++ [o]) = Plane.step box (Plane.history box P d ops) o := by
      unfold Plane.history; rw [List.foldl_append]; rfl
    rw [e]
    generalize Plane.history box P d ops = p at ih
    cases o with
    | add y =>
      obtain ⟨py, ny⟩ := ho y rfl
      have hk : ∃ ks, p.getrange (box y) = .ok ks ∧ ks.Nodup ∧
          ∀ c, c ∈ ks ↔ Spec.Overlap (box y) P ∧ c ∈ cellsOf P d (box y) := by
        by_cases ov : Spec.Overlap (box y) P
        · refine ⟨_, getrange_inside p (box y) (ih.bbox ▸ hP) py (ih.bbox ▸ ov), cellsOf_nodup _ _ _, fun c => ?_⟩
          rw [ih.bbox, ih.gridsize]; simp [ov]
        · exact ⟨[], getrange_outside p (box y) (ih.bbox ▸ ov), List.nodup_nil, fun c => by simp [ov]⟩
      obtain ⟨ks, hks, hn, hm⟩ := hk
      have hy : y ∉ p.objs := fun hc => ny ((ih.objs y).1 hc)
      simp only [Plane.step, Plane.add, hks, if_neg hy]
      refine ⟨ih.bbox, ih.gridsize, ?_, List.nodup_cons.2 ⟨hy, ih.objs_nodup⟩, ?_, ?_, ?_⟩
      · intro x; rw [List.mem_cons, ih.objs, live_add]
      · intro x hx
        rcases (live_add _ _ _).1 hx with rfl | hx
        · exact py
        · exact ih.proper x hx
      · intro x c
        simp only [mem_gridAdd, ih.grid, live_add, hm]
        constructor
        · rintro (⟨h1, h2⟩ | ⟨rfl, h2⟩)
          · exact ⟨.inr h1, h2⟩
          · exact ⟨.inl rfl, h2⟩
        · rintro ⟨rfl | h1, h2⟩
          · exact .inr ⟨rfl, h2⟩
          · exact .inl ⟨h1, h2⟩
      · intro c
        exact nodup_gridAdd ks hn p.grid y ih.grid_nodup (fun c _ hc => ny ((ih.grid y c).1 hc).1) c
    | remove y =>
      by_cases ly : Spec.Live ops y
      · have py := ih.proper y ly
        have hk : ∃ ks, p.getrange (box y) = .ok ks ∧
            ∀ c, c ∈ ks ↔ Spec.Overlap (box y) P ∧ c ∈ cellsOf P d (box y) := by
          by_cases ov : Spec.Overlap (box y) P
          · refine ⟨_, getrange_inside p (box y) (ih.bbox ▸ hP) py (ih.bbox ▸ ov), fun c => ?_⟩
            rw [ih.bbox, ih.gridsize]; simp [ov]
          · exact ⟨[], getrange_outside p (box y) (ih.bbox ▸ ov), fun c => by simp [ov]⟩
        obtain ⟨ks, hks, hm⟩ := hk
        simp only [Plane.step, Plane.remove, hks, if_pos ((ih.objs y).2 ly)]
        refine ⟨ih.bbox, ih.gridsize, ?_, ih.objs_nodup.erase _, ?_, ?_, ?_⟩
        · intro x; rw [ih.objs_nodup.mem_erase_iff, ih.objs, live_remove]
        · intro x hx; exact ih.proper x ((live_remove _ _ _).1 hx).2
        · intro x c
          rw [(gridRemove_spec ks p.grid y ih.grid_nodup c).2, ih.grid, live_remove, hm]
          constructor
          · rintro ⟨⟨h1, h2⟩, h3⟩
            exact ⟨⟨fun e => h3 ⟨e, e ▸ h2⟩, h1⟩, h2⟩
          · rintro ⟨⟨h1, h2⟩, h3⟩
            exact ⟨⟨h2, h3⟩, fun e => h1 e.1⟩
        · intro c; exact (gridRemove_spec ks p.grid y ih.grid_nodup c).1
      · -- removing an object that is not in the plane changes nothing
        have hl : ∀ x, Spec.Live (ops ++ [.remove y]) x ↔ Spec.Live ops x := by
          intro x; rw [live_remove]
          exact ⟨fun h => h.2, fun h => ⟨fun e => ly (e ▸ h), h⟩⟩
        simp only [Plane.step, Plane.remove]
        cases hk : p.getrange (box y) with
        | error e =>
          exact ⟨ih.bbox, ih.gridsize, fun x => by rw [ih.objs, hl], ih.objs_nodup, fun x hx => ih.proper x ((hl x).1 hx),
            fun x c => by rw [ih.grid, hl], ih.grid_nodup⟩
        | ok ks =>
          simp only [if_neg fun hc => ly ((ih.objs y).1 hc)]
          refine ⟨ih.bbox, ih.gridsize, fun x => by rw [ih.objs, hl], ih.objs_nodup, fun x hx => ih.proper x ((hl x).1 hx),
            fun x c => ?_, fun c => (gridRemove_spec ks p.grid y ih.grid_nodup c).1⟩
          rw [(gridRemove_spec ks p.grid y ih.grid_nodup c).2, ih.grid, hl]
          exact ⟨fun h => h.1, fun h => ⟨h, fun e => ly (e.1 ▸ h.1)⟩⟩

/-! ### find -/

theorem planeFindLoop_spec (box : α → PBox) (q : PBox) (l done : List α) :
    (planeFindLoop box q done l).Nodup ∧
    ∀ x, x ∈ planeFindLoop box q done l ↔ x ∈ l ∧ x ∉ done ∧ Spec.Overlap (box x) q := by
  induction l generalizing done with
  | nil => simp [planeFindLoop]
  | cons a as ih =>
    unfold planeFindLoop
    by_cases h : a ∈ done
    · rw [if_pos h]
      refine ⟨(ih done).1, fun x => ?_⟩
      rw [(ih done).2, List.mem_cons]
      constructor
      · rintro ⟨h1, h2⟩; exact ⟨.inr h1, h2⟩
      · rintro ⟨rfl | h1, h2⟩
        · exact absurd h h2.1
        · exact ⟨h1, h2⟩
    · rw [if_neg h]
      have key : ∀ x, (x ∈ as ∧ x ∉ a :: done ∧ Spec.Overlap (box x) q) ↔ (x ∈ as ∧ x ∉ done ∧ Spec.Overlap (box x) q) ∧ x ≠ a := by
        intro x; rw [List.mem_cons]; tauto
      by_cases ho : Spec.Overlap (box a) q
      · have hn : ¬ ((box a).x1 ≤ q.x0 ∨ q.x1 ≤ (box a).x0 ∨ (box a).y1 ≤ q.y0 ∨ q.y1 ≤ (box a).y0) := by
          push Not; exact ⟨ho.2.1, ho.1, ho.2.2.2, ho.2.2.1⟩
        rw [if_neg hn]
        refine ⟨List.nodup_cons.2 ⟨?_, (ih _).1⟩, fun x => ?_⟩
        · rw [(ih _).2]; simp
        · rw [List.mem_cons, (ih _).2, key, List.mem_cons]
          constructor
          · rintro (rfl | h1)
            · exact ⟨.inl rfl, h, ho⟩
            · exact ⟨.inr h1.1.1, h1.1.2⟩
          · rintro ⟨h1, h2⟩
            by_cases e : x = a
            · exact .inl e
            · exact .inr ⟨⟨h1.resolve_left e, h2⟩, e⟩
      · have hn : ((box a).x1 ≤ q.x0 ∨ q.x1 ≤ (box a).x0 ∨ (box a).y1 ≤ q.y0 ∨ q.y1 ≤ (box a).y0) := by
          by_contra hc; push Not at hc; exact ho ⟨hc.2.1, hc.1, hc.2.2.2, hc.2.2.1⟩
        rw [if_pos hn]
        refine ⟨(ih _).1, fun x => ?_⟩
        rw [(ih _).2, key, List.mem_cons]
        constructor
        · rintro ⟨h1, -⟩; exact ⟨.inr h1.1, h1.2⟩
        · rintro ⟨rfl | h1, h2⟩
          · exact absurd h2.2 ho
          · exact ⟨⟨h1, h2⟩, fun e => ho (e ▸ h2.2)⟩

theorem nice_min {a b : ℚ} (ha : Nice a) (hb : Nice b) : Nice (min a b) := by
  rcases min_choice a b with h | h <;> rw [h] <;> assumption

/-- Overlapping boxes have a common cell. -/
theorem common_cell (P a b : PBox) (d : Nat) (hd : 0 < d) (hP : Spec.Proper P) (ha : Spec.Proper a) (hb : Spec.Proper b)
    (haP : Spec.Overlap a P) (hbP : Spec.Overlap b P) (hab : Spec.Overlap a b)
    (hn : (0 ≤ P.x0 ∧ 0 ≤ P.y0) ∨ (Spec.Whole P ∧ Spec.Whole a ∧ Spec.Whole b)) :
    ∃ c, c ∈ cellsOf P d a ∧ c ∈ cellsOf P d b := by
  obtain ⟨P1, P2⟩ := hP
  obtain ⟨a1, a2⟩ := ha
  obtain ⟨b1, b2⟩ := hb
  obtain ⟨p1, p2, p3, p4⟩ := haP
  obtain ⟨q1, q2, q3, q4⟩ := hbP
  obtain ⟨r1, r2, r3, r4⟩ := hab
  have nx : Nice (min P.x1 a.x1) ∧ Nice (min P.x1 b.x1) ∧ Nice (min P.y1 a.y1) ∧ Nice (min P.y1 b.y1) := by
    rcases hn with ⟨hx, hy⟩ | ⟨⟨_, _, _, _, rfl⟩, ⟨_, _, _, _, rfl⟩, ⟨_, _, _, _, rfl⟩⟩
    · refine ⟨.inl (le_min ?_ ?_), .inl (le_min ?_ ?_), .inl (le_min ?_ ?_), .inl (le_min ?_ ?_)⟩ <;> linarith
    · exact ⟨nice_min (.inr ⟨_, rfl⟩) (.inr ⟨_, rfl⟩), nice_min (.inr ⟨_, rfl⟩) (.inr ⟨_, rfl⟩),
        nice_min (.inr ⟨_, rfl⟩) (.inr ⟨_, rfl⟩), nice_min (.inr ⟨_, rfl⟩) (.inr ⟨_, rfl⟩)⟩
  obtain ⟨x, hx1, hx2⟩ := drange_meet (a0 := max P.x0 a.x0) (a1 := min P.x1 a.x1) (b0 := max P.x0 b.x0) (b1 := min P.x1 b.x1)
    (max_lt (lt_min P1 p2) (lt_min p1 a1)) (max_lt (lt_min P1 q2) (lt_min q1 b1)) (max_lt (lt_min P1 q2) (lt_min p1 r1))
    (max_lt (lt_min P1 p2) (lt_min q1 r2)) nx.1 nx.2.1 d hd
  obtain ⟨y, hy1, hy2⟩ := drange_meet (a0 := max P.y0 a.y0) (a1 := min P.y1 a.y1) (b0 := max P.y0 b.y0) (b1 := min P.y1 b.y1)
    (max_lt (lt_min P2 p4) (lt_min p3 a2)) (max_lt (lt_min P2 q4) (lt_min q3 b2)) (max_lt (lt_min P2 q4) (lt_min p3 r3))
    (max_lt (lt_min P2 p4) (lt_min q3 r4)) nx.2.2.1 nx.2.2.2 d hd
  exact ⟨(x, y), (mem_cellsOf _ _ _ _).2 ⟨hx1, hy1⟩, (mem_cellsOf _ _ _ _).2 ⟨hx2, hy2⟩⟩

/-- **C55.** After every usual history of a plane, `find(q)` yields exactly the objects in the plane that overlap `q`, each once.
Objects and boxes outside the bounds of the plane are never found. The bounds of the plane are at non-negative coordinates, or all
coordinates are integers: `find_misses` shows why. -/
theorem find_exact (box : α → PBox) (P : PBox) (hP : Spec.Proper P) (d : Nat) (hd : 0 < d) (ops : List (PlaneOp α))
    (h : Spec.Usual box ops) (q : PBox) (hq : Spec.Proper q)
    (hc : (0 ≤ P.x0 ∧ 0 ≤ P.y0) ∨ (Spec.Whole P ∧ (∀ x, Spec.Live ops x → Spec.Whole (box x)) ∧ Spec.Whole q)) :
    ∃ r, (Plane.history box P d ops).find box q = .ok r ∧ r.Nodup ∧
      ∀ x, x ∈ r ↔ Spec.Live ops x ∧ Spec.Overlap (box x) q ∧ Spec.Overlap (box x) P ∧ Spec.Overlap q P := by
  have inv := history_inv box P hP d ops h
  generalize Plane.history box P d ops = p at inv
  by_cases ov : Spec.Overlap q P
  · have hr := getrange_inside p q (inv.bbox ▸ hP) hq (inv.bbox ▸ ov)
    rw [inv.bbox, inv.gridsize] at hr
    have fs := planeFindLoop_spec box q ((cellsOf P d q).flatMap p.grid) []
    refine ⟨_, by unfold Plane.find; rw [hr], fs.1, fun x => ?_⟩
    rw [fs.2]
    constructor
    · rintro ⟨h1, -, h3⟩
      obtain ⟨c, -, hx⟩ := List.mem_flatMap.1 h1
      obtain ⟨g1, g2, -⟩ := (inv.grid x c).1 hx
      exact ⟨g1, h3, g2, ov⟩
    · rintro ⟨h1, h2, h3, -⟩
      obtain ⟨c, c1, c2⟩ := common_cell P (box x) q d hd hP (inv.proper x h1) hq h3 ov h2
        (hc.imp id fun h => ⟨h.1, h.2.1 x h1, h.2.2⟩)
      exact ⟨List.mem_flatMap.2 ⟨c, c2, (inv.grid x c).2 ⟨h1, h3, c1⟩⟩, by simp, h2⟩
  · refine ⟨[], ?_, List.nodup_nil, fun x => by simp [ov]⟩
    unfold Plane.find
    rw [getrange_outside p q (inv.bbox ▸ ov)]
    rfl

/-- **C55.** When the objects lie inside the plane, `find(q)` yields exactly those that overlap `q`. -/
theorem find_inside (box : α → PBox) (P : PBox) (hP : Spec.Proper P) (d : Nat) (hd : 0 < d) (ops : List (PlaneOp α))
    (h : Spec.Usual box ops) (q : PBox) (hq : Spec.Proper q) (h0 : 0 ≤ P.x0 ∧ 0 ≤ P.y0)
    (hin : ∀ x, Spec.Live ops x → Spec.Inside (box x) P) :
    ∃ r, (Plane.history box P d ops).find box q = .ok r ∧ r.Nodup ∧
      ∀ x, x ∈ r ↔ Spec.Live ops x ∧ Spec.Overlap (box x) q := by
  obtain ⟨r, h1, h2, h3⟩ := find_exact box P hP d hd ops h q hq (.inl h0)
  refine ⟨r, h1, h2, fun x => ?_⟩
  rw [h3]
  refine ⟨fun h => ⟨h.1, h.2.1⟩, fun ⟨h4, h5⟩ => ?_⟩
  obtain ⟨i1, i2, i3, i4⟩ := hin x h4
  obtain ⟨p1, p2⟩ := (history_inv box P hP d ops h).proper x h4
  obtain ⟨o1, o2, o3, o4⟩ := h5
  refine ⟨h4, ⟨o1, o2, o3, o4⟩, ⟨?_, ?_, ?_, ?_⟩, ⟨?_, ?_, ?_, ?_⟩⟩ <;> linarith

/-- **C55.** The set operations agree with the history: `in` and `len` count the objects added and not removed. -/
theorem plane_members (box : α → PBox) (P : PBox) (hP : Spec.Proper P) (d : Nat) (ops : List (PlaneOp α))
    (h : Spec.Usual box ops) :
    (∀ x, (Plane.history box P d ops).contains x = true ↔ Spec.Live ops x) ∧
    ∃ l : List α, l.Nodup ∧ (∀ x, x ∈ l ↔ Spec.Live ops x) ∧ (Plane.history box P d ops).len = l.length := by
  have inv := history_inv box P hP d ops h
  exact ⟨fun x => by rw [Plane.contains, decide_eq_true_iff, inv.objs], _, inv.objs_nodup, inv.objs, rfl⟩

theorem history_seq (box : α → PBox) (P : PBox) (hP : Spec.Proper P) (d : Nat) (ops : List (PlaneOp α))
    (h : Spec.Usual box ops) :
    (Plane.history box P d ops).seq = ops.filterMap fun o => match o with | .add x => some x | .remove _ => none := by
  induction ops using List.reverseRecOn with
  | nil => rfl
  | append_singleton ops o ih =>
    obtain ⟨hu, ho⟩ := usual_snoc h
    have ih := ih hu
    have inv := history_inv box P hP d ops hu
    have e : Plane.history box P d (ops ++ [o]) = Plane.step box (Plane.history box P d ops) o := by
      unfold Plane.history; rw [List.foldl_append]; rfl
    rw [e, List.filterMap_append, ← ih]
    generalize Plane.history box P d ops = p at inv
    cases o with
    | add y =>
      obtain ⟨py, ny⟩ := ho y rfl
      by_cases ov : Spec.Overlap (box y) P
      · simp only [Plane.step, Plane.add, getrange_inside p (box y) (inv.bbox ▸ hP) py (inv.bbox ▸ ov)]; rfl
      · simp only [Plane.step, Plane.add, getrange_outside p (box y) (inv.bbox ▸ ov)]; rfl
    | remove y =>
      simp only [Plane.step, Plane.remove, List.filterMap_cons, List.filterMap_nil, List.append_nil]
      split
      · rfl
      · split <;> rfl

/-- **C55.** Iterating over the plane gives the objects that are in it in the order in which they were added. -/
theorem plane_iter (box : α → PBox) (P : PBox) (hP : Spec.Proper P) (d : Nat) (ops : List (PlaneOp α))
    (h : Spec.Usual box ops) (r : List α)
    (hr : r.Sublist (ops.filterMap fun o => match o with | .add x => some x | .remove _ => none))
    (hn : (ops.filterMap fun o => match o with | .add x => some x | .remove _ => none).Nodup)
    (hl : ∀ x, x ∈ r ↔ Spec.Live ops x) :
    (Plane.history box P d ops).iter = r := by
  have inv := history_inv box P hP d ops h
  unfold Plane.iter
  rw [history_seq box P hP d ops h]
  generalize (ops.filterMap fun o => match o with | .add x => some x | .remove _ => none) = s at *
  have e : (fun obj => decide (obj ∈ (Plane.history box P d ops).objs)) = fun obj => decide (obj ∈ r) := by
    funext x; rw [decide_eq_decide, inv.objs, hl]
  rw [e]
  clear e hl inv h hP
  induction hr with
  | slnil => rfl
  | @cons l₁ l₂ a hs ih =>
    have hn' := List.nodup_cons.1 hn
    have : a ∉ l₁ := fun hc => hn'.1 (hs.subset hc)
    rw [List.filter_cons_of_neg (by simpa using this)]
    exact ih hn'.2
  | @cons_cons l₁ l₂ a hs ih =>
    have hn' := List.nodup_cons.1 hn
    rw [List.filter_cons_of_pos (by simp)]
    congr 1
    rw [← ih hn'.2]
    apply List.filter_congr
    intro x hx
    have : x ≠ a := fun e => hn'.1 (e ▸ hx)
    rw [ih hn'.2]
    simp [this]

/-! ### Witnesses and limits -/

/-- Four boxes in a plane (for the examples). -/
def demoBox : Nat → PBox
  | 0 => ⟨10, 10, 60, 60⟩
  | 1 => ⟨55, 40, 130, 90⟩
  | 2 => ⟨-7/10, 1, 5, 5⟩
  | _ => ⟨0, 0, 200, 3⟩

/-- A history with removals (for the examples). -/
def demoOps : List (PlaneOp Nat) := [.add 0, .add 1, .add 3, .remove 0, .remove 7, .add 0, .remove 3]

theorem demo_usual : Spec.Usual demoBox demoOps := by
  intro pre x post h
  have hlen := congrArg List.length h
  have hpre : pre = demoOps.take pre.length := by rw [h]; simp
  have hget : demoOps[pre.length]? = some (.add x) := by rw [h]; simp
  have hlt : pre.length < 7 := by
    have : demoOps.length = 7 := rfl
    rw [this] at hlen; simp at hlen; omega
  have cases7 : ∀ n, n < 7 → pre.length = n → Spec.Proper (demoBox x) ∧ ¬ Spec.Live pre x := by
    intro n hn e
    rw [e] at hpre hget
    have l0 := live_nil (α := Nat)
    have la := live_add (α := Nat)
    have lr := live_remove (α := Nat)
    rcases n with _ | _ | _ | _ | _ | _ | _ | n
    · cases hget
      exact ⟨by constructor <;> norm_num [demoBox], by rw [hpre]; exact l0 0⟩
    · cases hget
      refine ⟨by constructor <;> norm_num [demoBox], ?_⟩
      rw [hpre, show demoOps.take 1 = [] ++ [.add 0] from rfl, la]; simp [l0]
    · cases hget
      refine ⟨by constructor <;> norm_num [demoBox], ?_⟩
      rw [hpre, show demoOps.take 2 = ([] ++ [.add 0]) ++ [.add 1] from rfl, la, la]; simp [l0]
    · cases hget
    · cases hget
    · cases hget
      refine ⟨by constructor <;> norm_num [demoBox], ?_⟩
      rw [hpre, show demoOps.take 5 = ((([] ++ [.add 0]) ++ [.add 1] ++ [.add 3]) ++ [.remove 0]) ++ [.remove 7] from rfl, lr, lr]; simp
    · cases hget
    · omega
  exact cases7 _ hlt rfl

example : (Plane.history demoBox ⟨0, 0, 300, 300⟩ 50 demoOps).find demoBox ⟨50, 50, 70, 70⟩ = .ok [1, 0] := by decide +kernel
example : (Plane.history demoBox ⟨0, 0, 300, 300⟩ 50 demoOps).iter = [0, 1, 0] := by decide +kernel
example : ∃ r, (Plane.history demoBox ⟨0, 0, 300, 300⟩ 50 demoOps).find demoBox ⟨50, 50, 70, 70⟩ = .ok r ∧ r.Nodup ∧
    ∀ x, x ∈ r ↔ Spec.Live demoOps x ∧ Spec.Overlap (demoBox x) ⟨50, 50, 70, 70⟩ ∧
      Spec.Overlap (demoBox x) ⟨0, 0, 300, 300⟩ ∧ Spec.Overlap ⟨50, 50, 70, 70⟩ ⟨0, 0, 300, 300⟩ :=
  find_exact demoBox _ (by constructor <;> norm_num) 50 (by norm_num) demoOps demo_usual _ (by constructor <;> norm_num)
    (.inl (by norm_num))

/-- **C55, limit.** With fractional negative coordinates `find` misses overlapping objects, because `int` truncates towards
zero. -/
theorem find_misses :
    (Plane.history demoBox ⟨-100, -100, 100, 100⟩ 50 [.add 2]).find demoBox ⟨-10, 0, -1/2, 5⟩ = .ok [] ∧
    Spec.Overlap (demoBox 2) ⟨-10, 0, -1/2, 5⟩ ∧ Spec.Overlap (demoBox 2) ⟨-100, -100, 100, 100⟩ ∧
    Spec.Overlap ⟨-10, 0, -1/2, 5⟩ ⟨-100, -100, 100, 100⟩ := by
  refine ⟨by decide +kernel, ?_, ?_, ?_⟩ <;> (refine ⟨?_, ?_, ?_, ?_⟩ <;> norm_num [demoBox])

/-- **C55, limit.** An object added twice and removed once is still found, although it is no longer in the plane. -/
theorem find_stale :
    (Plane.history demoBox ⟨0, 0, 300, 300⟩ 50 [.add 0, .add 0, .remove 0]).find demoBox ⟨0, 0, 50, 50⟩ = .ok [0] ∧
    (Plane.history demoBox ⟨0, 0, 300, 300⟩ 50 [.add 0, .add 0, .remove 0]).contains 0 = false := by
  decide +kernel

end Pdf

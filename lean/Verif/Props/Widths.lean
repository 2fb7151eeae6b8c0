import Verif.Model.Widths
import Verif.Spec.Widths
import Verif.Props.Xref
import Mathlib.Tactic.Ring
import Mathlib.Tactic.Linarith
import Mathlib.Tactic.NormNum
/-! C44: width arrays of CID fonts. -/

namespace Pdf
open Spec (WidthEntry WidthOf WArray W2Array)

theorem setRun_get {α : Type} (m : List (ℚ × α)) (c : Int) (ws : List α) (cid : Int) :
    dictGet (setRun m c ws) (cid : ℚ) = if c ≤ cid ∧ cid < c + ws.length then ws[(cid - c).toNat]? else dictGet m cid := by
  induction ws generalizing m c with
  | nil => rw [setRun, if_neg]; simp
  | cons w ws ih =>
    rw [setRun]
    have e : (c : ℚ) + 1 = ((c + 1 : Int) : ℚ) := by push_cast; ring
    rw [e, ih, dictGet_dictSet]
    simp only [List.length_cons, Int.cast_inj]
    by_cases h1 : c = cid
    · subst h1
      rw [if_neg (by omega), if_pos rfl, if_pos (by push_cast; omega)]
      simp
    · by_cases h2 : c + 1 ≤ cid ∧ cid < c + 1 + ws.length
      · rw [if_pos h2, if_pos (by push_cast; omega)]
        have : (cid - c).toNat = (cid - (c + 1)).toNat + 1 := by omega
        rw [this]; simp
      · rw [if_neg h2, if_neg h1, if_neg (by push_cast; omega)]

theorem setRange_get {α : Type} (m : List (ℚ × α)) (a : Int) (w : α) (n : Nat) (cid : Int) :
    dictGet (setRange m a w n) (cid : ℚ) = if a ≤ cid ∧ cid < a + n then some w else dictGet m cid := by
  induction n generalizing m a with
  | zero => rw [setRange, if_neg]; simp
  | succ n ih =>
    rw [setRange, ih, dictGet_dictSet]
    simp only [Int.cast_inj]
    by_cases h1 : a = cid
    · subst h1
      rw [if_neg (by omega), if_pos rfl, if_pos (by push_cast; omega)]
    · by_cases h2 : a + 1 ≤ cid ∧ cid < a + 1 + n
      · rw [if_pos h2, if_pos (by push_cast; omega)]
      · rw [if_neg h2, if_neg h1, if_neg (by push_cast; omega)]

/-- `Follows es m m'`: the dictionary `m'` is `m` updated by the entries. -/
def Follows {α : Type} (es : List (WidthEntry α)) (m m' : List (ℚ × α)) : Prop :=
  ∀ cid : Int, (∃ w, WidthOf es cid (some w) ∧ dictGet m' (cid : ℚ) = some w) ∨
    (WidthOf es cid none ∧ dictGet m' (cid : ℚ) = dictGet m (cid : ℚ))

theorem follows_cons {α : Type} {e : WidthEntry α} {es : List (WidthEntry α)} {m m1 m' : List (ℚ × α)}
    (he : ∀ cid : Int, (∃ w, e.Assigns cid w ∧ dictGet m1 (cid : ℚ) = some w) ∨
      ((∀ w, ¬ e.Assigns cid w) ∧ dictGet m1 (cid : ℚ) = dictGet m (cid : ℚ)))
    (h : Follows es m1 m') : Follows (e :: es) m m' := by
  intro cid
  rcases h cid with ⟨w, hw, hd⟩ | ⟨hw, hd⟩
  · left
    cases hw with
    | given heq ha hl => exact ⟨w, .given (before := e :: _) (by rw [heq]; rfl) ha hl, hd⟩
  · cases hw with
    | missing hm =>
      rcases he cid with ⟨w, ha, hd'⟩ | ⟨ha, hd'⟩
      · exact .inl ⟨w, .given (before := []) rfl ha hm, by rw [hd, hd']⟩
      · refine .inr ⟨.missing fun e' he' => ?_, by rw [hd, hd']⟩
        rcases List.mem_cons.1 he' with rfl | he'
        · exact ha
        · exact hm e' he'

theorem assigns_run {α : Type} (m : List (ℚ × α)) (c : Int) (ws : List α) (cid : Int) :
    (∃ w, (WidthEntry.run c ws).Assigns cid w ∧ dictGet (setRun m c ws) (cid : ℚ) = some w) ∨
      ((∀ w, ¬ (WidthEntry.run c ws).Assigns cid w) ∧ dictGet (setRun m c ws) (cid : ℚ) = dictGet m (cid : ℚ)) := by
  rw [setRun_get]
  by_cases h : c ≤ cid ∧ cid < c + ws.length
  · rw [if_pos h]
    have hi : (cid - c).toNat < ws.length := by omega
    exact .inl ⟨ws[(cid - c).toNat], ⟨(cid - c).toNat, by omega, List.getElem?_eq_getElem hi⟩, List.getElem?_eq_getElem hi⟩
  · rw [if_neg h]
    refine .inr ⟨?_, rfl⟩
    rintro w ⟨i, rfl, hi⟩
    obtain ⟨hi, _⟩ := List.getElem?_eq_some_iff.1 hi
    omega

theorem assigns_range {α : Type} (m : List (ℚ × α)) (a b : Int) (w : α) (cid : Int) :
    (∃ w', (WidthEntry.range a b w).Assigns cid w' ∧ dictGet (setRange m a w (b + 1 - a).toNat) (cid : ℚ) = some w') ∨
      ((∀ w', ¬ (WidthEntry.range a b w).Assigns cid w') ∧
        dictGet (setRange m a w (b + 1 - a).toNat) (cid : ℚ) = dictGet m (cid : ℚ)) := by
  rw [setRange_get]
  by_cases h : a ≤ cid ∧ cid ≤ b
  · rw [if_pos (by omega)]
    exact .inl ⟨w, ⟨h.1, h.2, rfl⟩, rfl⟩
  · rw [if_neg (by omega)]
    exact .inr ⟨fun w' hw => h ⟨hw.1, hw.2.1⟩, rfl⟩

theorem follows_nil {α : Type} (m : List (ℚ × α)) : Follows [] m m := fun _ => .inr ⟨.missing (by simp), rfl⟩

theorem widthsLoop_array {l : List Obj} {es : List (WidthEntry Obj)} (h : WArray l es) (m : List (ℚ × Obj)) :
    ∃ m', widthsLoop m [] l = .ok m' ∧ Follows es m m' := by
  induction h generalizing m with
  | nil => exact ⟨m, rfl, follows_nil m⟩
  | @run c ws l es _ ih =>
    obtain ⟨m', h1, h2⟩ := ih (setRun m (c : ℚ) ws)
    refine ⟨m', ?_, follows_cons (assigns_run m c ws) h2⟩
    simp [widthsLoop, Obj.num?, h1]
  | @range a b w l es hw _ ih =>
    obtain ⟨m', h1, h2⟩ := ih (setRange m a w (b + 1 - a).toNat)
    refine ⟨m', ?_, follows_cons (assigns_range m a b w) h2⟩
    cases w <;> simp [Spec.WNumber] at hw <;> simp [widthsLoop, Obj.num?, rangeArg, h1]

theorem triples_metrics (ms : List (Obj × Obj × Obj)) : triples (Spec.metrics ms) = ms := by
  induction ms with
  | nil => rfl
  | cons a ms ih =>
    obtain ⟨x, y, z⟩ := a
    show (x, y, z) :: triples (Spec.metrics ms) = _
    rw [ih]

theorem widths2Loop_array {l : List Obj} {es : List (WidthEntry (Obj × Obj × Obj))} (h : W2Array l es) (m : List (ℚ × (Obj × Obj × Obj))) :
    ∃ m', widths2Loop m [] l = .ok m' ∧ Follows es m m' := by
  induction h generalizing m with
  | nil => exact ⟨m, rfl, follows_nil m⟩
  | @run c ms l es _ ih =>
    obtain ⟨m', h1, h2⟩ := ih (setRun m (c : ℚ) ms)
    refine ⟨m', ?_, follows_cons (assigns_run m c ms) h2⟩
    simp [widths2Loop, Obj.num?, triples_metrics, h1]
  | @range a b w vx vy l es hw hx hy _ ih =>
    obtain ⟨m', h1, h2⟩ := ih (setRange m a (w, vx, vy) (b + 1 - a).toNat)
    refine ⟨m', ?_, follows_cons (assigns_range m a b (w, vx, vy)) h2⟩
    have nw : ∃ q, w.num? = some q := by cases w <;> simp [Spec.WNumber] at hw <;> exact ⟨_, rfl⟩
    have nx : ∃ q, vx.num? = some q := by cases vx <;> simp [Spec.WNumber] at hx <;> exact ⟨_, rfl⟩
    have ny : ∃ q, vy.num? = some q := by cases vy <;> simp [Spec.WNumber] at hy <;> exact ⟨_, rfl⟩
    have step : ∀ (o : Obj) (r rest : List Obj), Spec.WNumber o → r.length < 4 → widths2Loop m r (o :: rest) = widths2Loop m (r ++ [o]) rest := by
      intro o r rest ho hr
      cases o <;> simp [Spec.WNumber] at ho <;>
      · rw [widths2Loop]
        · simp only [Obj.num?]
          split
          · rename_i he
            have := congrArg List.length he
            simp at this; omega
          · rfl
        · simp
    have hi : ∀ n, Spec.WNumber (.int n) := fun _ => trivial
    rw [step _ _ _ (hi a) (by simp), step _ _ _ (hi b) (by simp), step _ _ _ hw (by simp), step _ _ _ hx (by simp)]
    obtain ⟨q, hq⟩ := ny
    cases vy <;> simp [Spec.WNumber] at hy <;> simp [widths2Loop, Obj.num?, rangeArg, h1]

/-- What the entries say about a CID is unique. -/
theorem widthOf_unique {α : Type} {es : List (WidthEntry α)} {cid : Int} {r r' : Option α}
    (h : WidthOf es cid r) (h' : WidthOf es cid r') : r = r' := by
  cases h with
  | missing hm =>
    cases h' with
    | missing => rfl
    | given heq ha _ => exact absurd ha (hm _ (by rw [heq]; simp) _)
  | given heq ha hl =>
    rename_i before e after w
    cases h' with
    | missing hm => exact absurd ha (hm _ (by rw [heq]; simp) _)
    | given heq' ha' hl' =>
      rename_i before' e' after' w'
      have hh := heq.symm.trans heq'
      rcases List.append_eq_append_iff.1 hh with ⟨a, rfl, h2⟩ | ⟨a, rfl, h2⟩
      · cases a with
        | nil =>
          simp at h2
          obtain ⟨rfl, rfl⟩ := h2
          cases e with
          | run c ws =>
            obtain ⟨i, hi, hw⟩ := ha
            obtain ⟨j, hj, hw'⟩ := ha'
            have : i = j := by omega
            subst this
            exact hw.symm.trans hw'
          | range a b v => rw [← ha.2.2, ← ha'.2.2]
        | cons x a =>
          simp at h2
          exact absurd ha' (hl _ (by rw [h2.2]; simp) _)
      · cases a with
        | nil =>
          simp at h2
          obtain ⟨rfl, rfl⟩ := h2
          cases e' with
          | run c ws =>
            obtain ⟨i, hi, hw⟩ := ha
            obtain ⟨j, hj, hw'⟩ := ha'
            have : i = j := by omega
            subst this
            exact hw.symm.trans hw'
          | range a b v => rw [← ha.2.2, ← ha'.2.2]
        | cons x a =>
          simp at h2
          exact absurd ha (hl' _ (by rw [h2.2]; simp) _)

theorem follows_empty {α : Type} {es : List (WidthEntry α)} {m : List (ℚ × α)} (h : Follows es [] m) (cid : Int) (r : Option α) :
    WidthOf es cid r ↔ dictGet m (cid : ℚ) = r := by
  have key : WidthOf es cid (dictGet m (cid : ℚ)) := by
    rcases h cid with ⟨w, hw, hd⟩ | ⟨hw, hd⟩
    · rw [hd]; exact hw
    · rw [hd]; exact hw
  exact ⟨fun hr => widthOf_unique key hr, fun he => he ▸ key⟩

/-- C44. `get_widths` gives every CID exactly the width that the array `W` assigns it. -/
theorem widths_array {l : List Obj} {es : List (WidthEntry Obj)} (h : WArray l es) :
    ∃ m, getWidths l = .ok m ∧ ∀ (cid : Int) (r : Option Obj), dictGet m (cid : ℚ) = r ↔ WidthOf es cid r := by
  obtain ⟨m, h1, h2⟩ := widthsLoop_array h []
  exact ⟨m, h1, fun cid r => (follows_empty h2 cid r).symm⟩

/-- C44. `get_widths2` gives every CID exactly the metrics that the array `W2` assigns it. -/
theorem widths2_array {l : List Obj} {es : List (WidthEntry (Obj × Obj × Obj))} (h : W2Array l es) :
    ∃ m, getWidths2 l = .ok m ∧ ∀ (cid : Int) (r : Option (Obj × Obj × Obj)), dictGet m (cid : ℚ) = r ↔ WidthOf es cid r := by
  obtain ⟨m, h1, h2⟩ := widths2Loop_array h []
  exact ⟨m, h1, fun cid r => (follows_empty h2 cid r).symm⟩

/-- A real array and its entries. -/
example : WArray [.int 1, .arr [.int 500, .real 2505 1], .int 7, .int 9, .int 600, .int 8, .arr [.int 1]]
    [.run 1 [.int 500, .real 2505 1], .range 7 9 (.int 600), .run 8 [.int 1]] := .run (.range trivial (.run .nil))

example : W2Array [.int 1, .arr [.int 2, .int 3, .int 4], .int 7, .int 9, .int 5, .int 6, .int 7]
    [.run 1 [(.int 2, .int 3, .int 4)], .range 7 9 (.int 5, .int 6, .int 7)] :=
  .run (ms := [(.int 2, .int 3, .int 4)]) (.range trivial trivial trivial .nil)

theorem widthsLoop_total {l r : List Obj} {m : List (ℚ × Obj)} (hr : r.length < 3) (hri : ∀ x ∈ r, ∃ n, rangeArg x = some n)
    (hl : ∀ x ∈ l, ∀ q, x.num? = some q → ∃ n, rangeArg x = some n) : ∃ m', widthsLoop m r l = .ok m' := by
  induction l generalizing m r with
  | nil => exact ⟨m, rfl⟩
  | cons v l ih =>
    have hl' : ∀ x ∈ l, ∀ q, x.num? = some q → ∃ n, rangeArg x = some n := fun x hx => hl x (List.mem_cons_of_mem _ hx)
    have num : ∀ q, v.num? = some q → (∀ w, v ≠ .arr w) → ∃ m', widthsLoop m r (v :: l) = .ok m' := by
      intro q hq hna
      obtain ⟨k, hk⟩ := hl v List.mem_cons_self q hq
      have hri' : ∀ x ∈ r ++ [v], ∃ n, rangeArg x = some n := by
        intro x hx
        rcases List.mem_append.1 hx with h | h
        · exact hri x h
        · simp at h; exact ⟨k, by rw [h]; exact hk⟩
      rw [widthsLoop]
      · simp only [hq]
        split
        · rename_i c1 c2 w he
          obtain ⟨a, ha⟩ := hri' c1 (by rw [he]; simp)
          obtain ⟨b, hb⟩ := hri' c2 (by rw [he]; simp)
          simp only [ha, hb]
          exact ih (by simp) (by simp) hl'
        · rename_i hne
          refine ih ?_ hri' hl'
          have h3 : (r ++ [v]).length ≠ 3 := by
            intro h3
            match hrv : r ++ [v], h3 with
            | [x, y, z], _ => exact hne x y z hrv
          simp at h3 ⊢
          omega
      · exact hna
    cases v with
    | arr w =>
      rw [widthsLoop]
      split
      · exact ih (by simp) (by simp) hl'
      · exact ih hr hri hl'
    | int n => exact num _ rfl (by simp)
    | bool b => exact num _ rfl (by simp)
    | real a b => exact num _ rfl (by simp)
    | _ =>
      rw [widthsLoop]
      · simp only [Obj.num?]
        exact ih hr hri hl'
      · simp

/-- `get_widths` never fails on an array whose numbers are integers, well-formed or not. -/
theorem widths_total {l : List Obj} (hl : ∀ x ∈ l, ∀ m k, x ≠ .real m k) : ∃ m, getWidths l = .ok m := by
  refine widthsLoop_total (by simp) (by simp) fun x hx q hq => ?_
  cases x with
  | int n => exact ⟨n, rfl⟩
  | bool b => exact ⟨_, rfl⟩
  | real m k => exact absurd rfl (hl _ hx m k)
  | _ => cases hq

/-- A reference to a list inside `W` is not followed: it is skipped, and the numbers before and after it run together. Here the code 1 loses
its widths, and the range from 1 to 7 gets the width 8. -/
theorem widths_reference_counterexample : getWidths [.int 1, .ref 9 0, .int 7, .int 8, .int 600] =
    .ok [(1, .int 8), (2, .int 8), (3, .int 8), (4, .int 8), (5, .int 8), (6, .int 8), (7, .int 8)] := by
  simp [getWidths, widthsLoop, Obj.num?, rangeArg, setRange, dictSet]

end Pdf

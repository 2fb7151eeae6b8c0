import Verif.Model.Geometry
import Verif.Model.Pages
import Verif.Spec.Geometry
import Mathlib.Data.Set.Function
/-! C33 page coordinates, C36 matrices, C40 (bounding boxes of points), C42 relations between boxes. -/

namespace Pdf
open Spec

theorem Mat.ext' {m n : Mat} (h1 : m.a = n.a) (h2 : m.b = n.b) (h3 : m.c = n.c) (h4 : m.d = n.d) (h5 : m.e = n.e) (h6 : m.f = n.f) : m = n := by
  cases m; cases n; simp_all

/-! ### C36 -/

/-- C36: `mult_matrix(m1, m0)` is composition, `m1` first. -/
theorem mult_apply (m1 m0 : Mat) (v : ℚ × ℚ) : applyPt (multMatrix m1 m0) v = applyPt m0 (applyPt m1 v) := by
  simp only [applyPt, multMatrix, Prod.mk.injEq]
  constructor <;> ring

theorem mult_assoc (m2 m1 m0 : Mat) : multMatrix (multMatrix m2 m1) m0 = multMatrix m2 (multMatrix m1 m0) := by
  apply Mat.ext' <;> simp only [multMatrix] <;> ring

theorem mult_id (m : Mat) : multMatrix m Mat.identity = m ∧ multMatrix Mat.identity m = m := by
  constructor <;> apply Mat.ext' <;> simp [multMatrix, Mat.identity]

theorem apply_id (v : ℚ × ℚ) : applyPt Mat.identity v = v := by
  obtain ⟨x, y⟩ := v
  simp [applyPt, Mat.identity]

/-- A matrix is determined by what it does to points. -/
theorem apply_injective {m n : Mat} (h : ∀ v, applyPt m v = applyPt n v) : m = n := by
  have h0 := h (0, 0)
  have h1 := h (1, 0)
  have h2 := h (0, 1)
  simp only [applyPt, Prod.mk.injEq] at h0 h1 h2
  apply Mat.ext' <;> linarith

/-- C36: `translate_matrix` first translates: it adds the vector to the point, or its image to the image of the point. -/
theorem translate_apply (m : Mat) (v p : ℚ × ℚ) : applyPt (translateMatrix m v) p = applyPt m (p.1 + v.1, p.2 + v.2) ∧
    applyPt (translateMatrix m v) p = ((applyPt m p).1 + (applyNorm m v).1, (applyPt m p).2 + (applyNorm m v).2) := by
  simp only [applyPt, translateMatrix, applyNorm, Prod.mk.injEq]
  refine ⟨⟨?_, ?_⟩, ?_, ?_⟩ <;> ring

/-- C36: `apply_matrix_norm` is the difference of the images of two points. -/
theorem norm_apply (m : Mat) (p q : ℚ × ℚ) :
    applyNorm m (p.1 - q.1, p.2 - q.2) = ((applyPt m p).1 - (applyPt m q).1, (applyPt m p).2 - (applyPt m q).2) := by
  simp only [applyPt, applyNorm, Prod.mk.injEq]
  constructor <;> ring

/-! ### C33 -/

/-- The linear part of the initial matrix turns by the rotation of the page. -/
theorem initial_turns (n : Nat) (hn : n < 4) (x0 y0 x1 y1 : ℚ) (v : ℚ × ℚ) : applyNorm (initialMatrix (90 * n) x0 y0 x1 y1) v = turns n v := by
  obtain ⟨x, y⟩ := v
  have : n = 0 ∨ n = 1 ∨ n = 2 ∨ n = 3 := by omega
  rcases this with rfl | rfl | rfl | rfl <;> simp [initialMatrix, applyNorm, turns, quarterTurn]

/-- C33: for every media box and every number `n` of clockwise quarter turns (`Rotate` = 90 `n`), the initial matrix of the page turns
every vector by `n` quarter turns and maps the media box onto the box with corner at the origin that has the width and height of the media
box, swapped if `n` is odd. -/
theorem page_coordinates (mediabox : Obj) (a b c d : Obj) (x0 y0 x1 y1 : ℚ) (n : Nat) (hn : n < 4) (hm : mediabox = .arr [a, b, c, d])
    (ha : a.num? = some x0) (hb : b.num? = some y0) (hc : c.num? = some x1) (hd : d.num? = some y1) (hx : x0 ≤ x1) (hy : y0 ≤ y1) :
    ∃ m, pageGeometry mediabox (90 * n) = .ok (m, x1 - x0, y1 - y0) ∧ (∀ v, applyNorm m v = turns n v) ∧
      applyPt m '' Box x0 y0 x1 y1 = if n % 2 = 0 then Box 0 0 (x1 - x0) (y1 - y0) else Box 0 0 (y1 - y0) (x1 - x0) := by
  refine ⟨initialMatrix (90 * n) x0 y0 x1 y1, ?_, initial_turns n hn x0 y0 x1 y1, ?_⟩
  · subst hm
    simp [pageGeometry, Obj.num, ha, hb, hc, hd, bind, Except.bind]
  · have : n = 0 ∨ n = 1 ∨ n = 2 ∨ n = 3 := by omega
    rcases this with rfl | rfl | rfl | rfl
    · ext ⟨p, q⟩
      simp only [initialMatrix, applyPt, Box, Set.mem_image, Set.mem_setOf_eq, Prod.exists, Prod.mk.injEq]
      norm_num
      constructor
      · rintro ⟨u, v, ⟨h1, h2, h3, h4⟩, rfl, rfl⟩; refine ⟨?_, ?_, ?_, ?_⟩ <;> linarith
      · rintro ⟨h1, h2, h3, h4⟩; exact ⟨p + x0, q + y0, ⟨by linarith, by linarith, by linarith, by linarith⟩, by ring, by ring⟩
    · ext ⟨p, q⟩
      simp only [initialMatrix, applyPt, Box, Set.mem_image, Set.mem_setOf_eq, Prod.exists, Prod.mk.injEq]
      norm_num
      constructor
      · rintro ⟨u, v, ⟨h1, h2, h3, h4⟩, rfl, rfl⟩; refine ⟨?_, ?_, ?_, ?_⟩ <;> linarith
      · rintro ⟨h1, h2, h3, h4⟩; exact ⟨x1 - q, p + y0, ⟨by linarith, by linarith, by linarith, by linarith⟩, by ring, by ring⟩
    · ext ⟨p, q⟩
      simp only [initialMatrix, applyPt, Box, Set.mem_image, Set.mem_setOf_eq, Prod.exists, Prod.mk.injEq]
      norm_num
      constructor
      · rintro ⟨u, v, ⟨h1, h2, h3, h4⟩, rfl, rfl⟩; refine ⟨?_, ?_, ?_, ?_⟩ <;> linarith
      · rintro ⟨h1, h2, h3, h4⟩; exact ⟨x1 - p, y1 - q, ⟨by linarith, by linarith, by linarith, by linarith⟩, by ring, by ring⟩
    · ext ⟨p, q⟩
      simp only [initialMatrix, applyPt, Box, Set.mem_image, Set.mem_setOf_eq, Prod.exists, Prod.mk.injEq]
      norm_num
      constructor
      · rintro ⟨u, v, ⟨h1, h2, h3, h4⟩, rfl, rfl⟩; refine ⟨?_, ?_, ?_, ?_⟩ <;> linarith
      · rintro ⟨h1, h2, h3, h4⟩; exact ⟨q + x0, y1 - p, ⟨by linarith, by linarith, by linarith, by linarith⟩, by ring, by ring⟩

/-- C33: the rotation of a page is normalised: it is the remainder modulo 360 of the number in the page, so that every multiple of 90,
negative ones too, is one of the four cases of `page_coordinates`. -/
theorem rotation_normalised (R : Resolver) (objid : Int) (attrs : List (Key × Obj)) (p : Page) (n : Int) (h : mkPage R objid attrs = .ok p)
    (hn : R.intValue ((dictGet attrs (.name (asc "Rotate"))).getD (.int 0)) = .ok n) :
    0 ≤ p.rotate ∧ p.rotate < 360 ∧ (360 : Int) ∣ p.rotate - n ∧ (90 ∣ n → ∃ k : Nat, k < 4 ∧ p.rotate = 90 * k ∧ n = 90 * k + 360 * (n / 360)) := by
  have hr : p.rotate = (n + 360) % 360 := by
    simp only [mkPage, bind, Except.bind] at h
    cases h1 : R.resolve1 ((dictGet attrs (nm "LastModified")).getD .null) with
    | error e => rw [h1] at h; simp at h
    | ok lm =>
    rw [h1] at h; dsimp only at h
    cases h2 : R.resolve1 ((dictGet attrs (nm "Resources")).getD (.dict [])) with
    | error e => rw [h2] at h; simp at h
    | ok rs =>
    rw [h2] at h; dsimp only at h
    cases h3 : mediaOf R attrs with
    | error e => rw [h3] at h; simp at h
    | ok mb =>
    rw [h3] at h; dsimp only at h
    cases h4 : cropOf R attrs mb with
    | error e => rw [h4] at h; simp at h
    | ok cb =>
    rw [h4] at h; dsimp only at h
    rw [show R.intValue ((dictGet attrs (nm "Rotate")).getD (.int 0)) = .ok n from hn] at h; dsimp only at h
    cases h5 : contentsOf R attrs with
    | error e => rw [h5] at h; simp at h
    | ok cs =>
    rw [h5] at h; dsimp only at h
    cases h; rfl
  refine ⟨by omega, by omega, by omega, fun h9 => ⟨((n % 360) / 90).toNat, by omega, by omega, by omega⟩⟩

example : pageGeometry (.arr [.int 10, .int 20, .int 110, .int 220]) 90 = .ok (⟨0, -1, 1, 0, -20, 110⟩, 100, 200) := by
  norm_num [pageGeometry, Obj.num, Obj.num?, initialMatrix, bind, Except.bind]

/-- The hypotheses of `page_coordinates` hold for a page of letter size turned twice. -/
example : ∃ m, pageGeometry (.arr [.int 0, .int 0, .int 612, .int 792]) 180 = .ok (m, 612 - 0, 792 - 0) ∧ (∀ v, applyNorm m v = turns 2 v) ∧
    applyPt m '' Box 0 0 612 792 = Box 0 0 (612 - 0) (792 - 0) := by
  obtain ⟨m, h1, h2, h3⟩ := page_coordinates _ (.int 0) (.int 0) (.int 612) (.int 792) 0 0 612 792 2 (by decide) rfl rfl rfl rfl rfl (by norm_num) (by norm_num)
  exact ⟨m, h1, h2, h3⟩

/-! ### C40: points -/

/-- The point lies in the box. -/
def Bbox.has (b : Bbox) (p : ℚ × ℚ) : Prop := p ∈ Box b.x0 b.y0 b.x1 b.y1

/-- The box is the smallest one that contains the points. -/
structure SmallestBox (b : Bbox) (pts : List (ℚ × ℚ)) : Prop where
  contains : ∀ p ∈ pts, p ∈ Box b.x0 b.y0 b.x1 b.y1
  least : ∀ x0 y0 x1 y1, (∀ p ∈ pts, p ∈ Box x0 y0 x1 y1) → x0 ≤ b.x0 ∧ y0 ≤ b.y0 ∧ b.x1 ≤ x1 ∧ b.y1 ≤ y1

theorem boundsOf_spec (pts : List (ℚ × ℚ)) (acc : Bbox) :
    (∀ p ∈ pts, p ∈ Box (boundsOf acc pts).x0 (boundsOf acc pts).y0 (boundsOf acc pts).x1 (boundsOf acc pts).y1) ∧
    (boundsOf acc pts).x0 ≤ acc.x0 ∧ (boundsOf acc pts).y0 ≤ acc.y0 ∧ acc.x1 ≤ (boundsOf acc pts).x1 ∧ acc.y1 ≤ (boundsOf acc pts).y1 ∧
    ∀ x0 y0 x1 y1, (∀ p ∈ pts, p ∈ Box x0 y0 x1 y1) → x0 ≤ acc.x0 → y0 ≤ acc.y0 → acc.x1 ≤ x1 → acc.y1 ≤ y1 →
      x0 ≤ (boundsOf acc pts).x0 ∧ y0 ≤ (boundsOf acc pts).y0 ∧ (boundsOf acc pts).x1 ≤ x1 ∧ (boundsOf acc pts).y1 ≤ y1 := by
  induction pts generalizing acc with
  | nil => exact ⟨by simp, le_refl _, le_refl _, le_refl _, le_refl _, fun x0 y0 x1 y1 _ h1 h2 h3 h4 => ⟨h1, h2, h3, h4⟩⟩
  | cons p ps ih =>
    obtain ⟨x, y⟩ := p
    obtain ⟨h1, h2, h3, h4, h5, h6⟩ := ih ⟨min acc.x0 x, min acc.y0 y, max acc.x1 x, max acc.y1 y⟩
    rw [boundsOf]
    simp only [le_min_iff, max_le_iff] at h2 h3 h4 h5
    refine ⟨?_, h2.1, h3.1, h4.1, h5.1, fun x0 y0 x1 y1 hp a1 a2 a3 a4 => ?_⟩
    · intro p hp
      rcases List.mem_cons.1 hp with rfl | hp
      · exact ⟨h2.2, h4.2, h3.2, h5.2⟩
      · exact h1 p hp
    · obtain ⟨b1, b2, b3, b4⟩ := hp (x, y) (by simp)
      exact h6 x0 y0 x1 y1 (fun p hp' => hp p (by simp [hp'])) (le_min a1 b1) (le_min a2 b3) (max_le a3 b2) (max_le a4 b4)

/-- C40: `Bbox.from_points` of points with coordinates of at most `INF` = 2^31 - 1 in absolute value (at least one point) is the smallest box
that contains them. -/
theorem from_points (pts : List (ℚ × ℚ)) (hne : pts ≠ []) (hinf : ∀ p ∈ pts, p ∈ Box (-INF) (-INF) INF INF) : SmallestBox (fromPoints pts) pts := by
  obtain ⟨h1, h2, h3, h4, h5, h6⟩ := boundsOf_spec pts ⟨INF, INF, -INF, -INF⟩
  obtain ⟨p, hp⟩ := List.exists_mem_of_ne_nil _ hne
  obtain ⟨a1, a2, a3, a4⟩ := h1 p hp
  have hb : fromPoints pts = boundsOf ⟨INF, INF, -INF, -INF⟩ pts := by
    unfold fromPoints mkBbox
    have e1 := min_eq_left (a1.trans a2)
    have e2 := max_eq_right (a1.trans a2)
    have e3 := min_eq_left (a3.trans a4)
    have e4 := max_eq_right (a3.trans a4)
    simp only [e1, e2, e3, e4]
  rw [hb]
  refine ⟨h1, fun x0 y0 x1 y1 hc => ?_⟩
  -- the bounds are attained: compare with the box of the points clipped to ±INF
  have hc' : ∀ p ∈ pts, p ∈ Box (min x0 INF) (min y0 INF) (max x1 (-INF)) (max y1 (-INF)) := fun p hp => by
    obtain ⟨c1, c2, c3, c4⟩ := hc p hp
    exact ⟨(min_le_left _ _).trans c1, c2.trans (le_max_left _ _), (min_le_left _ _).trans c3, c4.trans (le_max_left _ _)⟩
  obtain ⟨b1, b2, b3, b4⟩ := h6 _ _ _ _ hc' (min_le_right _ _) (min_le_right _ _) (le_max_right _ _) (le_max_right _ _)
  obtain ⟨c1, c2, c3, c4⟩ := hc p hp
  obtain ⟨d1, d2, d3, d4⟩ := hinf p hp
  rw [min_eq_left (c1.trans d2)] at b1
  rw [min_eq_left (c3.trans d4)] at b2
  rw [max_eq_left (d1.trans c2)] at b3
  rw [max_eq_left (d3.trans c4)] at b4
  exact ⟨b1, b2, b3, b4⟩

/-- Beyond 2^31 - 1 the box of a point does not have it as its corner. -/
theorem from_points_counterexample : ¬ SmallestBox (fromPoints [(3000000000, 0)]) [(3000000000, 0)] := by
  intro h
  have := (h.least 3000000000 0 3000000000 0 (by simp [Box])).1
  norm_num [fromPoints, boundsOf, mkBbox, INF] at this

example : SmallestBox (fromPoints [(1, 5), (3, 2), (2, 9)]) [(1, 5), (3, 2), (2, 9)] :=
  from_points _ (by simp) (by intro p hp; simp only [List.mem_cons, List.not_mem_nil, or_false] at hp; rcases hp with rfl | rfl | rfl <;> norm_num [Box, INF])

/-! ### C42 -/

/-- The box has its sides in order, as every `Bbox` has. -/
def Bbox.Ok (b : Bbox) : Prop := b.x0 ≤ b.x1 ∧ b.y0 ≤ b.y1

theorem mkBbox_ok (x0 y0 x1 y1 : ℚ) : (mkBbox x0 y0 x1 y1).Ok := ⟨min_le_max, min_le_max⟩

theorem interval_distance (a0 a1 b0 b1 : ℚ) (ha : a0 ≤ a1) (hb : b0 ≤ b1) (h : ¬ (b0 ≤ a1 ∧ a0 ≤ b1)) :
    min |a0 - b1| |a1 - b0| = gap a0 a1 b0 b1 := by
  unfold gap
  rcases not_and_or.1 h with h | h
  · push Not at h
    rw [abs_of_neg (by linarith), abs_of_neg (by linarith), max_eq_right (by linarith : a0 ≤ b0), min_eq_left (by linarith : a1 ≤ b1),
      max_eq_right (by linarith), min_eq_right (by linarith)]
    ring
  · push Not at h
    rw [abs_of_pos (by linarith), abs_of_pos (by linarith), max_eq_left (by linarith : b0 ≤ a0), min_eq_right (by linarith : b1 ≤ a1),
      max_eq_right (by linarith), min_eq_left (by linarith)]

theorem gap_zero (a0 a1 b0 b1 : ℚ) (ha : a0 ≤ a1) (hb : b0 ≤ b1) (h : b0 ≤ a1 ∧ a0 ≤ b1) : gap a0 a1 b0 b1 = 0 := by
  unfold gap
  refine max_eq_left (sub_nonpos.2 (max_le (le_min ha h.2) (le_min h.1 hb)))

/-- C42: horizontal and vertical distance are the widths of the gaps between the projections. -/
theorem distances (s o : Bbox) (hs : s.Ok) (ho : o.Ok) :
    s.hdistance o = gap s.x0 s.x1 o.x0 o.x1 ∧ s.vdistance o = gap s.y0 s.y1 o.y0 o.y1 := by
  constructor
  · unfold Bbox.hdistance Bbox.isHoverlap
    by_cases h : o.x0 ≤ s.x1 ∧ s.x0 ≤ o.x1
    · rw [if_pos (by simpa using h), gap_zero _ _ _ _ hs.1 ho.1 h]
    · rw [if_neg (by simpa using h), interval_distance _ _ _ _ hs.1 ho.1 h]
  · unfold Bbox.vdistance Bbox.isVoverlap
    by_cases h : o.y0 ≤ s.y1 ∧ s.y0 ≤ o.y1
    · rw [if_pos (by simpa using h), gap_zero _ _ _ _ hs.2 ho.2 h]
    · rw [if_neg (by simpa using h), interval_distance _ _ _ _ hs.2 ho.2 h]

/-- C42: all four measures are symmetric. -/
theorem relations_symmetric (s o : Bbox) : s.hdistance o = o.hdistance s ∧ s.vdistance o = o.vdistance s ∧ s.hoverlap o = o.hoverlap s ∧
    s.voverlap o = o.voverlap s := by
  have e1 : s.isHoverlap o = o.isHoverlap s := by simp [Bbox.isHoverlap, and_comm]
  have e2 : s.isVoverlap o = o.isVoverlap s := by simp [Bbox.isVoverlap, and_comm]
  unfold Bbox.hdistance Bbox.vdistance Bbox.hoverlap Bbox.voverlap
  rw [e1, e2, abs_sub_comm s.x0, abs_sub_comm s.x1, abs_sub_comm s.y0, abs_sub_comm s.y1, min_comm |o.x1 - s.x0|, min_comm |o.y1 - s.y0|]
  exact ⟨rfl, rfl, rfl, rfl⟩

/-- C42: the distance is 0 iff the projections have a common point. -/
theorem distance_zero (s o : Bbox) (hs : s.Ok) (ho : o.Ok) :
    (s.hdistance o = 0 ↔ ∃ x, (s.x0 ≤ x ∧ x ≤ s.x1) ∧ o.x0 ≤ x ∧ x ≤ o.x1) ∧ (s.vdistance o = 0 ↔ ∃ y, (s.y0 ≤ y ∧ y ≤ s.y1) ∧ o.y0 ≤ y ∧ y ≤ o.y1) := by
  rw [(distances s o hs ho).1, (distances s o hs ho).2]
  have key : ∀ a0 a1 b0 b1 : ℚ, a0 ≤ a1 → b0 ≤ b1 → (gap a0 a1 b0 b1 = 0 ↔ ∃ x, (a0 ≤ x ∧ x ≤ a1) ∧ b0 ≤ x ∧ x ≤ b1) := by
    intro a0 a1 b0 b1 ha hb
    constructor
    · intro h
      have h2 : max a0 b0 - min a1 b1 ≤ 0 := by unfold gap at h; exact (le_max_right _ _).trans (le_of_eq h)
      have h3 : max a0 b0 ≤ min a1 b1 := by linarith
      exact ⟨max a0 b0, ⟨le_max_left _ _, h3.trans (min_le_left _ _)⟩, le_max_right _ _, h3.trans (min_le_right _ _)⟩
    · rintro ⟨x, ⟨h1, h2⟩, h3, h4⟩
      exact gap_zero _ _ _ _ ha hb ⟨h3.trans h2, h1.trans h4⟩
  exact ⟨key _ _ _ _ hs.1 ho.1, key _ _ _ _ hs.2 ho.2⟩

/-- C42, missing case: if no projection lies strictly inside the other, the overlap is the length of the intersection of the projections.
(See `overlap_counterexample` for a box inside another.) -/
theorem overlaps_partial (s o : Bbox) (hs : s.Ok) (ho : o.Ok) :
    ((s.x0 ≤ o.x0 ∧ s.x1 ≤ o.x1) ∨ (o.x0 ≤ s.x0 ∧ o.x1 ≤ s.x1) → s.hoverlap o = interLength s.x0 s.x1 o.x0 o.x1) ∧
    ((s.y0 ≤ o.y0 ∧ s.y1 ≤ o.y1) ∨ (o.y0 ≤ s.y0 ∧ o.y1 ≤ s.y1) → s.voverlap o = interLength s.y0 s.y1 o.y0 o.y1) := by
  have key : ∀ a0 a1 b0 b1 : ℚ, a0 ≤ a1 → b0 ≤ b1 → (a0 ≤ b0 ∧ a1 ≤ b1) ∨ (b0 ≤ a0 ∧ b1 ≤ a1) →
      (if (b0 ≤ a1 ∧ a0 ≤ b1) then min |a0 - b1| |a1 - b0| else 0) = interLength a0 a1 b0 b1 := by
    intro a0 a1 b0 b1 ha hb h
    unfold interLength
    split
    · next hc =>
      rw [abs_of_nonpos (by linarith [hc.2]), abs_of_nonneg (by linarith [hc.1])]
      rcases h with ⟨h1, h2⟩ | ⟨h1, h2⟩
      · rw [min_eq_left h2, max_eq_right h1, max_eq_right (by linarith [hc.1]), min_eq_right (by linarith)]
      · rw [min_eq_right h2, max_eq_left h1, max_eq_right (by linarith [hc.2]), min_eq_left (by linarith)]
        ring
    · next hc =>
      symm
      refine max_eq_left (sub_nonpos.2 ?_)
      rcases not_and_or.1 hc with hc | hc <;> push Not at hc
      · exact (min_le_left _ _).trans (hc.le.trans (le_max_right _ _))
      · exact (min_le_right _ _).trans (hc.le.trans (le_max_left _ _))
  constructor
  · intro h
    have := key _ _ _ _ hs.1 ho.1 h
    unfold Bbox.hoverlap Bbox.isHoverlap
    simpa using this
  · intro h
    have := key _ _ _ _ hs.2 ho.2 h
    unfold Bbox.voverlap Bbox.isVoverlap
    simpa using this

/-- The overlap of a box with a box inside it is not the length of the intersection: here it is 6, not 2. -/
theorem overlap_counterexample : ∃ s o : Bbox, s.Ok ∧ o.Ok ∧ s.hoverlap o ≠ interLength s.x0 s.x1 o.x0 o.x1 := by
  refine ⟨⟨0, 0, 10, 10⟩, ⟨4, 4, 6, 6⟩, by norm_num [Bbox.Ok], by norm_num [Bbox.Ok], ?_⟩
  norm_num [Bbox.hoverlap, Bbox.isHoverlap, interLength, abs_of_neg, abs_of_pos]

/-- Overlap and distance are never negative, and never both positive. -/
theorem overlap_or_distance (s o : Bbox) : 0 ≤ s.hoverlap o ∧ 0 ≤ s.hdistance o ∧ (s.hoverlap o = 0 ∨ s.hdistance o = 0) := by
  unfold Bbox.hoverlap Bbox.hdistance
  split
  · exact ⟨le_min (abs_nonneg _) (abs_nonneg _), le_refl _, Or.inr rfl⟩
  · exact ⟨le_refl _, le_min (abs_nonneg _) (abs_nonneg _), Or.inl rfl⟩

example : (mkBbox 0 0 4 4).hdistance (mkBbox 9 1 7 2) = 3 := by
  rw [(distances _ _ (mkBbox_ok ..) (mkBbox_ok ..)).1]
  norm_num [gap, mkBbox]

end Pdf

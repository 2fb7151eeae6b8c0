import Verif.Props.WrittenPages
import Verif.Props.Provenance
import Verif.Spec.Drawing
/-! C107: what is drawn on the pages of a written document is delivered. -/

namespace Pdf
open Spec

theorem Spec.Dec.num (d : Dec) : d.obj.num? = some d.val := by
  unfold Dec.obj Dec.val
  split
  · rename_i h; rw [h]; simp [Obj.num?]
  · rfl

theorem Spec.Dec.num_ok (d : Dec) : d.obj.num = .ok d.val := by
  rw [Obj.num, d.num]

theorem Spec.Dec.operand (d : Dec) : Operand d.obj := by
  unfold Dec.obj
  split <;> simp [Operand]

theorem Spec.Dec.writes (d : Dec) (D : Dialect) : Writes D [d.tok] d.obj := by
  unfold Dec.tok Dec.obj
  split
  · exact .int _
  · exact .real _ _

/-! ### The items -/

/-- The objects of a mark. -/
def Spec.Mark.ops : Mark → List Obj
  | .fill r g b => [r.obj, g.obj, b.obj, operator "rg"]
  | .stroke r g b => [r.obj, g.obj, b.obj, operator "RG"]
  | .width w => [w.obj, operator "w"]
  | .rect x y w h => [x.obj, y.obj, w.obj, h.obj, operator "re", operator "f"]
  | .path p q more => [p.1.obj, p.2.obj, operator "m"] ++ (q :: more).flatMap (fun p => [p.1.obj, p.2.obj, operator "l"]) ++ [operator "S"]
  | .image i a b c d e f => [operator "q", a.obj, b.obj, c.obj, d.obj, e.obj, f.obj, operator "cm", .name (imageName i), operator "Do", operator "Q"]
  | .text size x y s => [operator "BT", .name (asc "F1"), size.obj, operator "Tf", x.obj, y.obj, operator "Td", .str s, operator "Tj", operator "ET"]

/-- The state of the interpreter between two marks. -/
structure Between (E : Env1) (f : Font) (ig : Bool) (images : List (List (Key × Obj) × Bytes)) (σ : Style) (s : St) : Prop where
  matrix : s.tmatrix = Mat.identity
  fill : s.graphics.ncolor = σ.fill
  stroke : s.graphics.scolor = σ.stroke
  width : s.graphics.linewidth = σ.width
  saved : s.gstack = []
  curves : s.curves = []
  done : s.done = []
  block : s.block = none
  rgb : dictGet s.csmap (nm "DeviceRGB") = some (some ⟨asc "DeviceRGB", .int 3⟩)
  scaling : s.text.scaling = .int 100
  charspace : s.text.charspace = .int 0
  wordspace : s.text.wordspace = .int 0
  rise : s.text.rise = .int 0
  ignore : s.text.ignoreBad = ig
  font : dictGet s.fontmap (nm "F1") = some f
  images : ∀ i d raw, images[i]? = some (d, raw) → ∃ r, dictGet s.xobjmap (.name (imageName i)) = some r ∧ E.R.resolve1 r = .ok (.stream d raw)

theorem rgb_bytes (r g b : Dec) : ∃ x y z : Int, bytesOfColor [r.obj, g.obj, b.obj] = .ok [.int x, .int y, .int z] ∧
    Nearest (r.val * 255) x ∧ Nearest (g.val * 255) y ∧ Nearest (b.val * 255) z := by
  refine ⟨_, _, _, ?_, pyRound_nearest _, pyRound_nearest _, pyRound_nearest _⟩
  simp only [bytesOfColor, Dec.num_ok]

/-- An operator that completes nothing. -/
theorem runWith_quiet {E : Env1} {nested : List Obj → St → Gen Item} (as : List Obj) (n : String) {k : Nat} {f : Op} {os : List Obj} {e : Option PyErr} {s s' s1 : St} {items : List Item}
    (ha : ∀ a ∈ as, Operand a) (hf : dictGet (commands E.R) (methodName (asc n)) = some (k, f)) (hk : k = as.length) (hs : s.done = []) (h1 : f as s = .ok s1) (hd : s1.done = [])
    (h : runWith E nested (as ++ operator n :: os) e s = ((items, none), s')) : runWith E nested os e s1 = ((items, none), s') := by
  subst hk
  obtain ⟨s2, i1, i2, g1, g2, g3, rfl⟩ := runWith_op ha hf hs h
  rw [h1] at g1
  cases g1
  rw [hd] at g2
  simp only [finish] at g2
  cases g2
  rw [List.nil_append, ← g3, ← hd]

/-- An operator that completes one item. -/
theorem runWith_item {E : Env1} {nested : List Obj → St → Gen Item} (as : List Obj) (n : String) {k : Nat} {f : Op} {os : List Obj} {e : Option PyErr} {s s' s1 : St} {items : List Item} {i : Item}
    (ha : ∀ a ∈ as, Operand a) (hf : dictGet (commands E.R) (methodName (asc n)) = some (k, f)) (hk : k = as.length) (hs : s.done = []) (h1 : f as s = .ok s1) (hd : s1.done = [i])
    (hi : ∀ a b c d e, i ≠ .xobj a b c d e) (h : runWith E nested (as ++ operator n :: os) e s = ((items, none), s')) :
    ∃ i2, runWith E nested os e { s1 with done := [] } = ((i2, none), s') ∧ items = i :: i2 := by
  subst hk
  obtain ⟨s2, i1, i2, g1, g2, g3, rfl⟩ := runWith_op ha hf hs h
  rw [h1] at g1
  cases g1
  rw [hd] at g2
  have : finish E nested s1.graphics [i] = ([i], none) := by
    cases i with
    | xobj a b c d e => exact absurd rfl (hi a b c d e)
    | _ => rfl
  rw [this] at g2
  cases g2
  exact ⟨i2, g3, rfl⟩

theorem endPoints_lines (l : List Pt) : endPoints (l.map fun v => lineTo (spot v)) = .ok (l.map spot) := by
  induction l with
  | nil => rfl
  | cons p l ih => simp only [lineTo] at ih; simp only [List.map_cons, endPoints, lineTo, endPoint, List.getElem?_cons_zero, point, ih]

theorem path_lines {E : Env1} {nested : List Obj → St → Gen Item} (l : List Pt) : ∀ {os : List Obj} {e : Option PyErr} {s s' : St} {items : List Item}, s.done = [] →
    runWith E nested (l.flatMap (fun p => [p.1.obj, p.2.obj, operator "l"]) ++ os) e s = ((items, none), s') →
    runWith E nested os e { s with curves := s.curves ++ l.map fun v => lineTo (spot v) } = ((items, none), s') := by
  induction l with
  | nil => intro os e s s' items hd h; simpa using h
  | cons p l ih =>
    intro os e s s' items hd h
    rw [List.flatMap_cons, List.append_assoc] at h
    have h1 := runWith_quiet [p.1.obj, p.2.obj] "l" (f := opCurve .lineTo) (os := l.flatMap (fun p => [p.1.obj, p.2.obj, operator "l"]) ++ os) (s1 := { s with curves := s.curves ++ [lineTo (spot p)] })
      (by intro a ha; simp at ha; rcases ha with rfl | rfl <;> exact Dec.operand _) rfl rfl hd (by simp only [opCurve, pointsOf, Dec.num]; rfl) hd h
    have := ih (s := { s with curves := s.curves ++ [lineTo (spot p)] }) hd h1
    simpa [List.append_assoc] using this

theorem imageBbox_smallest (a b c d e f : ℚ) (h : ∀ v ∈ [((0 : ℚ), (0 : ℚ)), (1, 0), (0, 1), (1, 1)], (a * v.1 + c * v.2 + e, b * v.1 + d * v.2 + f) ∈ Box (-INF) (-INF) INF INF) :
    SmallestBox (imageBbox (multMatrix ⟨a, b, c, d, e, f⟩ Mat.identity)) ([((0 : ℚ), (0 : ℚ)), (1, 0), (0, 1), (1, 1)].map fun v => (a * v.1 + c * v.2 + e, b * v.1 + d * v.2 + f)) := by
  have hm : multMatrix Mat.identity (multMatrix ⟨a, b, c, d, e, f⟩ Mat.identity) = ⟨a, b, c, d, e, f⟩ := by
    simp [multMatrix, Mat.identity]
  unfold imageBbox
  simp only [hm]
  refine from_points _ (by simp) ?_
  intro p hp
  simp only [List.mem_cons, List.not_mem_nil, or_false] at hp
  rcases hp with rfl | rfl | rfl | rfl
  · exact h (0, 0) (by simp)
  · exact h (1, 0) (by simp)
  · exact h (0, 1) (by simp)
  · exact h (1, 1) (by simp)

/-- The characters of a string are placed one after another. -/
theorem renderCids_placed {f : Font} (hv : f.vertical = false) {ig : Bool} {size x0 y : ℚ} {p : ShowPar} (hp : p = ⟨⟨1, 0, 0, 1, x0, y⟩, 1, 0, 0, size, p.dxscale, .int 0⟩) :
    ∀ (codes : List Int) {dx : ℚ} {need : Bool} {cs : List (Text × (ℚ × ℚ) × (ℚ × ℚ))} {r : Render}, renderCids f p ig codes ⟨(dx, 0), need, cs⟩ = .ok r →
      ∃ l, r.chars = cs ++ l ∧ Placed f ig size y (x0 + dx) codes (l.map (mkChar f)) := by
  intro codes
  induction codes with
  | nil => intro dx need cs r h; simp only [renderCids] at h; cases h; exact ⟨[], by simp, .nil⟩
  | cons c codes ih =>
    intro dx need cs r h
    simp only [renderCids] at h
    split at h
    · cases h
    rename_i r1 h1
    simp only [renderCid, bind, Except.bind, hv] at h1
    split at h1
    · cases h1
    rename_i t ht
    split at h1
    · cases h1
    rename_i b hb
    cases h1
    have hl : (if need = true then bump false (dx, 0) p.charspace else (dx, 0)) = (dx, 0) := by
      rw [hp]; simp [bump]
    rw [hl] at hb h
    simp only [charBbox, bind, Except.bind, hv] at hb
    split at hb
    · cases hb
    rename_i w hw
    split at hb
    · cases hb
    rename_i rise hrise
    simp only [Bool.false_eq_true, if_false] at hb
    split at hb
    · cases hb
    rename_i fh hfh
    split at hb
    · cases hb
    rename_i fd hfd
    cases hb
    have hr0 : rise = 0 := by
      rw [hp] at hrise
      simp only [Obj.num, Obj.num?] at hrise
      cases hrise
      simp
    have hws : p.wordspace = 0 := by rw [hp]
    have hm : p.matrix = ⟨1, 0, 0, 1, x0, y⟩ := by rw [hp]
    have hsc : p.scaling = 1 := by rw [hp]
    have hfs : p.fontsize = size := by rw [hp]
    simp only [hws, ne_eq, not_true_eq_false, and_false, if_false, bump, Bool.false_eq_true, hsc, hfs, mul_one] at h
    obtain ⟨l, g1, g2⟩ := ih h
    refine ⟨_ :: l, by rw [g1, List.append_assoc]; rfl, ?_⟩
    rw [List.map_cons]
    rw [← add_assoc] at g2
    have e0 : applyPt (translateMatrix p.matrix (dx, 0)) (0, fd * size + rise) = (x0 + dx, y + fd * size) := by
      rw [hm, hr0]; simp only [applyPt, translateMatrix, Prod.mk.injEq]; constructor <;> ring
    have e1 : applyPt (translateMatrix p.matrix (dx, 0)) (w * size, fd * size + rise + fh * size) = (x0 + dx + w * size, y + fd * size + fh * size) := by
      rw [hm, hr0]; simp only [applyPt, translateMatrix, Prod.mk.injEq]; constructor <;> ring
    rw [e0, e1]
    have hs : ∀ b, sizeOf f b = b.y1 - b.y0 := by intro b; simp [sizeOf, hv, Bbox.height]
    simp only [mkChar, hs]
    refine .cons ?_ hw hfh hfd ?_ g2
    · unfold toText at ht
      split at ht
      · rename_i t' h'
        cases ht
        exact .known h'
      · rename_i e' h'
        split at ht
        · rename_i h''
          cases ht
          exact .unknown (h''.1 ▸ h') h''.2
        · cases ht
    · have : ∀ p q : ℚ × ℚ, mkBbox (min p.1 q.1) (min p.2 q.2) (max p.1 q.1) (max p.2 q.2) = mkBbox p.1 p.2 q.1 q.2 := by
        intro p q
        have h1 : min p.1 q.1 ≤ max p.1 q.1 := min_le_max
        have h2 : min p.2 q.2 ≤ max p.2 q.2 := min_le_max
        simp only [mkBbox, min_eq_left h1, min_eq_left h2, max_eq_right h1, max_eq_right h2]
      exact (this (x0 + dx, y + fd * size) (x0 + dx + w * size, y + fd * size + fh * size)) ▸ smallest_two _ _

theorem placed_text {f : Font} {ig : Bool} {size x y : ℚ} {codes : List Int} {l : List (PyStr × Bbox × ℚ)} (h : Placed f ig size y x codes l) :
    List.Forall₂ (CodeShows f ig) codes (l.map Prod.fst) := by
  induction h with
  | nil => exact .nil
  | cons h1 _ _ _ _ _ ih => exact .cons h1 ih

/-- The char-block of a string. -/
theorem string_block {f : Font} {ig : Bool} {σ : Style} {size x y : Dec} {str : Bytes} {t : PyStr} (ht : StringText f ig str t) {ts : TState} (h1 : ts.scaling = .int 100)
    (h2 : ts.charspace = .int 0) (h3 : ts.wordspace = .int 0) (h4 : ts.rise = .int 0) (h5 : ts.ignoreBad = ig) (h6 : ts.fontsize = size.obj)
    (h7 : ts.matrix = ⟨1, 0, 0, 1, x.val, y.val⟩) {cb : CharBlock} {line : ℚ × ℚ} (h : showSeq f Mat.identity ts (0, 0) σ.fill [.str str] = .ok (cb, line)) :
    StringBlock f ig σ size x y str cb := by
  have hp : showPar f Mat.identity ts = .ok ⟨⟨1, 0, 0, 1, x.val, y.val⟩, 1, 0, 0, size.val, 1 / 1000 * size.val * 1, .int 0⟩ := by
    have i0 : Obj.num (.int 0) = .ok 0 := rfl
    have i100 : Obj.num (.int 100) = .ok 100 := rfl
    simp only [showPar, h1, h2, h3, h4, h6, h7, Dec.num_ok, i0, i100, bind, Except.bind, multMatrix, Mat.identity]
    norm_num
  simp only [showSeq, hp, bind, Except.bind, h5] at h
  split at h
  · cases h
  rename_i r hr
  split at h
  · cases h
  rename_i cb' hcb
  cases h
  have hok : CharBlockOk cb := charBlock_ok (renderSeq_ordered (by intro c hc; cases hc) hr) hcb
  have htx := renderSeq_text (stringText_array ht) hr
  obtain ⟨codes, hc, hcs⟩ : ∃ codes, f.decode str = .ok codes ∧ renderCids f ⟨⟨1, 0, 0, 1, x.val, y.val⟩, 1, 0, 0, size.val, 1 / 1000 * size.val * 1, .int 0⟩ ig codes ⟨(0, 0), false, []⟩ = .ok r := by
    simp only [renderSeq, renderObj, Obj.num?] at hr
    split at hr
    · cases hr
    rename_i r' hr'
    cases hr
    split at hr'
    · cases hr'
    · rename_i codes hc
      exact ⟨codes, hc, hr'⟩
  cases hrc : r.chars with
  | nil => rw [hrc] at hcb; cases hcb
  | cons c cs =>
    rw [hrc] at hcb
    simp only [mkCharBlock] at hcb
    cases hcb
    refine ⟨?_, rfl, h6, rfl, hok.smallest, fun hv => ?_, fun hv => ⟨codes, hc, ?_⟩⟩
    · obtain ⟨codes, ts, q1, q2, q3⟩ := ht
      refine ⟨codes, ts, q1, q2, ?_⟩
      unfold renderText at htx
      rw [hrc] at htx
      simp only [List.map_map]
      rw [show (Prod.fst ∘ mkChar f) = Prod.fst from rfl]
      rw [← q3]
      simpa using htx
    · simp only [sizeOf, hv, Bool.false_eq_true, if_false, Bbox.height]
    · obtain ⟨l, q1, q2⟩ := renderCids_placed hv rfl codes hcs
      rw [hrc, List.nil_append] at q1
      rw [add_zero] at q2
      rw [q1]
      exact q2

theorem mark_run {E : Env1} {nested : List Obj → St → Gen Item} {f : Font} {ig : Bool} {images : List (List (Key × Obj) × Bytes)} (him : ∀ i ∈ images, IsImage i) {σ : Style} (m : Mark)
    (hm : Drawable f ig images.length m) {os : List Obj} {e : Option PyErr} {s s' : St} {items : List Item} (hs : Between E f ig images σ s)
    (h : runWith E nested (m.ops ++ os) e s = ((items, none), s')) :
    ∃ σ' s1 i1 i2, Draws f ig images σ m σ' i1 ∧ runWith E nested os e s1 = ((i2, none), s') ∧ Between E f ig images σ' s1 ∧ items = i1 ++ i2 := by
  obtain ⟨b1, b2, b3, b4, b5, b6, b7, b8, b9, b10, b11, b12, b13, b14, b15, b16⟩ := hs
  cases m with
  | fill r g b =>
    obtain ⟨x, y, z, hc, n1, n2, n3⟩ := rgb_bytes r g b
    have h1 := runWith_quiet [r.obj, g.obj, b.obj] "rg" (f := opRgb setFill) (os := os) (s1 := { s with graphics := setFill s.graphics (some ⟨asc "DeviceRGB", .int 3⟩) [.int x, .int y, .int z] })
      (by intro a ha; simp at ha; rcases ha with rfl | rfl | rfl <;> exact Dec.operand _) rfl rfl b7 (by simp only [opRgb, b9, hc]) b7 h
    exact ⟨_, _, [], items, .fill ⟨x, y, z, rfl, n1, n2, n3⟩, h1, ⟨b1, rfl, b3, b4, b5, b6, b7, b8, b9, b10, b11, b12, b13, b14, b15, b16⟩, rfl⟩
  | stroke r g b =>
    obtain ⟨x, y, z, hc, n1, n2, n3⟩ := rgb_bytes r g b
    have h1 := runWith_quiet [r.obj, g.obj, b.obj] "RG" (f := opRgb setStroke) (os := os) (s1 := { s with graphics := setStroke s.graphics (some ⟨asc "DeviceRGB", .int 3⟩) [.int x, .int y, .int z] })
      (by intro a ha; simp at ha; rcases ha with rfl | rfl | rfl <;> exact Dec.operand _) rfl rfl b7 (by simp only [opRgb, b9, hc]) b7 h
    exact ⟨_, _, [], items, .stroke ⟨x, y, z, rfl, n1, n2, n3⟩, h1, ⟨b1, b2, rfl, b4, b5, b6, b7, b8, b9, b10, b11, b12, b13, b14, b15, b16⟩, rfl⟩
  | width w =>
    have h1 := runWith_quiet [w.obj] "w" (os := os) (f := setG fun g x => { g with linewidth := x }) (s1 := { s with graphics := { s.graphics with linewidth := w.obj } })
      (by intro a ha; simp at ha; rcases ha with rfl; exact Dec.operand _) rfl rfl b7 rfl b7 h
    exact ⟨_, _, [], items, .width, h1, ⟨b1, b2, b3, rfl, b5, b6, b7, b8, b9, b10, b11, b12, b13, b14, b15, b16⟩, rfl⟩
  | rect x y w ht =>
    have hid : ∀ p, applyPt s.tmatrix p = p := by intro p; rw [b1]; simp [applyPt, Mat.identity]
    obtain ⟨ps, hps⟩ : ∃ ps, Quad ps (x.val, y.val) (x.val + w.val, y.val) (x.val + w.val, y.val + ht.val) (x.val, y.val + ht.val) := ⟨_, rfl⟩
    have h1 := runWith_quiet [x.obj, y.obj, w.obj, ht.obj] "re" (os := operator "f" :: os) (f := opRect) (s1 := { s with curves := ps })
      (by intro a ha; simp at ha; rcases ha with rfl | rfl | rfl | rfl <;> exact Dec.operand _) rfl rfl b7
      (by simp only [opRect, Dec.num_ok, bind, Except.bind, b6, List.nil_append, hps.symm]) b7 h
    have hmk := makeCurve_quad (m := s.tmatrix) (g := s.graphics) (eo := false) hps
    simp only [hid] at hmk
    rw [if_pos (by simp [AxisAligned])] at hmk
    obtain ⟨i2, k1, rfl⟩ := runWith_item [] "f" (os := os) (f := opPaint false) (s := { s with curves := ps })
      (s1 := { s with done := [_], curves := [] }) (by simp) rfl rfl b7 (by simp only [opPaint, hmk, b7, List.nil_append]; rfl) rfl (by simp) h1
    refine ⟨σ, _, [_], i2, ?_, k1, ⟨b1, b2, b3, b4, b5, rfl, rfl, b8, b9, b10, b11, b12, b13, b14, b15, b16⟩, rfl⟩
    rw [b2, b3, b4]
    refine .rect hps ?_
    have h4 := smallest_four (x.val, y.val) (x.val + w.val, y.val) (x.val + w.val, y.val + ht.val) (x.val, y.val + ht.val)
    refine ⟨fun p hp => h4.contains p ?_, fun x0 y0 x1 y1 hb => h4.least x0 y0 x1 y1 ?_⟩
    · simp only [List.mem_cons, List.not_mem_nil, or_false] at hp ⊢
      tauto
    · have q1 := hb (x.val, y.val) (by simp)
      have q2 := hb (x.val + w.val, y.val + ht.val) (by simp)
      simp only [Box, Set.mem_ofPred_eq] at q1 q2
      intro p hp
      simp only [List.mem_cons, List.not_mem_nil, or_false] at hp
      rcases hp with rfl | rfl | rfl | rfl <;> simp only [Box, Set.mem_ofPred_eq] <;> tauto
  | path p q more =>
    have hid : ∀ p, applyPt s.tmatrix p = p := by intro p; rw [b1]; simp [applyPt, Mat.identity]
    have h0 : (Mark.path p q more).ops ++ os = [p.1.obj, p.2.obj] ++ operator "m" :: ((q :: more).flatMap (fun p => [p.1.obj, p.2.obj, operator "l"]) ++ (operator "S" :: os)) := by
      simp [Mark.ops]
    rw [h0] at h
    have h1 := runWith_quiet [p.1.obj, p.2.obj] "m" (f := opCurve .moveTo) (s1 := { s with curves := [⟨.moveTo, [(some p.1.val, some p.2.val)]⟩] })
      (by intro a ha; simp at ha; rcases ha with rfl | rfl <;> exact Dec.operand _) rfl rfl b7 (by simp only [opCurve, pointsOf, Dec.num, b6, List.nil_append]) b7 h
    have h2 := path_lines (q :: more) (s := { s with curves := [⟨.moveTo, [(some p.1.val, some p.2.val)]⟩] }) b7 h1
    obtain ⟨ps, hps⟩ : ∃ ps, ps = ⟨.moveTo, [(some p.1.val, some p.2.val)]⟩ :: (q :: more).map (fun v => lineTo (spot v)) := ⟨_, rfl⟩
    replace h2 : runWith E nested (operator "S" :: os) e { s with curves := ps } = ((items, none), s') := by rw [hps]; exact h2
    cases more with
    | nil =>
      have hmk : makeCurve s.tmatrix s.graphics false ps = .ok (.curve ⟨if (spot p).1 = (spot q).1 then .vertical else if (spot p).2 = (spot q).2 then .horizontal else .line,
          s.graphics.linewidth, ps, mkBbox (spot p).1 (spot p).2 (spot q).1 (spot q).2, s.graphics.scolor, s.graphics.ncolor, false⟩) := by
        rw [hps]
        simp only [List.map_cons, List.map_nil, lineTo, makeCurve, transformed, point, hid]
        rfl
      obtain ⟨i2, k1, rfl⟩ := runWith_item [] "S" (os := os) (f := opPaint false) (s := { s with curves := ps })
        (s1 := { s with done := [_], curves := [] }) (by simp) rfl rfl b7 (by simp only [opPaint, hmk, b7, List.nil_append]; rfl) rfl (by simp) h2
      refine ⟨σ, _, [_], i2, ?_, k1, ⟨b1, b2, b3, b4, b5, rfl, rfl, b8, b9, b10, b11, b12, b13, b14, b15, b16⟩, rfl⟩
      rw [b2, b3, b4, hps]
      refine .segment ?_ (smallest_two _ _)
      split
      · rename_i h; exact .vertical h
      · rename_i h
        split
        · rename_i h'; exact .horizontal h h'
        · rename_i h'; exact .line h h'
    | cons r more =>
      have he : endPoints ps = .ok ((p :: q :: r :: more).map spot) := by
        have := endPoints_lines (q :: r :: more)
        rw [hps, endPoints]
        simp only [endPoint, List.getElem?_cons_zero, point, this]
        rfl
      have hmk : makeCurve s.tmatrix s.graphics false ps = .ok (.curve ⟨.curve, s.graphics.linewidth, ps, fromPoints ((p :: q :: r :: more).map spot), s.graphics.scolor, s.graphics.ncolor, false⟩) := by
        refine makeCurve_other ?_ ?_ he
        · intro a b hq
          rw [hps] at hq
          simp [Segment] at hq
        · intro a b c d hq
          rw [hps] at hq
          cases more with
          | nil => simp [Quad] at hq
          | cons t more =>
            cases more with
            | nil => simp [Quad, lineTo] at hq
            | cons u more => simp [Quad, lineTo] at hq
      obtain ⟨i2, k1, rfl⟩ := runWith_item [] "S" (os := os) (f := opPaint false) (s := { s with curves := ps })
        (s1 := { s with done := [_], curves := [] }) (by simp) rfl rfl b7 (by simp only [opPaint, hmk, b7, List.nil_append]; rfl) rfl (by simp) h2
      refine ⟨σ, _, [_], i2, ?_, k1, ⟨b1, b2, b3, b4, b5, rfl, rfl, b8, b9, b10, b11, b12, b13, b14, b15, b16⟩, rfl⟩
      rw [b2, b3, b4, hps]
      refine .path fun hb => from_points _ (by simp) ?_
      intro v hv
      obtain ⟨w, hw, rfl⟩ := List.mem_map.1 hv
      exact hb w hw
  | image i a b c d' e' f' =>
    obtain ⟨⟨d, raw⟩, hi⟩ : ∃ x, images[i]? = some x := ⟨_, List.getElem?_eq_getElem hm⟩
    obtain ⟨r, r1, r2⟩ := b16 i d raw hi
    obtain ⟨_, m1, m2, m3⟩ := him _ (List.mem_of_getElem? hi)
    have h0 : (Mark.image i a b c d' e' f').ops ++ os = [] ++ operator "q" :: ([a.obj, b.obj, c.obj, d'.obj, e'.obj, f'.obj] ++ operator "cm" :: ([.name (imageName i)] ++ operator "Do" :: ([] ++ operator "Q" :: os))) := by
      simp [Mark.ops]
    rw [h0] at h
    have h1 := runWith_quiet [] "q" (f := opSave) (s1 := { s with gstack := [(s.tmatrix, s.text, s.graphics)] })
      (by simp) rfl rfl b7 (by simp only [opSave, b5]) b7 h
    obtain ⟨M, hM⟩ : ∃ M, M = multMatrix ⟨a.val, b.val, c.val, d'.val, e'.val, f'.val⟩ s.tmatrix := ⟨_, rfl⟩
    have h2 := runWith_quiet [a.obj, b.obj, c.obj, d'.obj, e'.obj, f'.obj] "cm" (f := opConcat) (s := { s with gstack := [(s.tmatrix, s.text, s.graphics)] })
      (s1 := { s with gstack := [(s.tmatrix, s.text, s.graphics)], tmatrix := M })
      (by intro a ha; simp at ha; rcases ha with rfl | rfl | rfl | rfl | rfl | rfl <;> exact Dec.operand _) rfl rfl b7
      (by simp only [opConcat, matOf, Dec.num_ok, bind, Except.bind, hM]) b7 h1
    have hne : ¬ (dictGet d (nm "Subtype") = some (.name (asc "Form")) ∧ (dictGet d (nm "BBox")).isSome) := by
      rintro ⟨h, _⟩
      rw [show dictGet d (nm "Subtype") = some (.name (asc "Image")) from m1] at h
      injection h with h
      injection h with h
      exact absurd h (by decide)
    have hdo : opXObject E.R [.name (imageName i)] { s with gstack := [(s.tmatrix, s.text, s.graphics)], tmatrix := M } =
        .ok { s with gstack := [(s.tmatrix, s.text, s.graphics)], tmatrix := M, done := [.image d raw (imageBbox M)] } := by
      simp only [opXObject, Obj.key, r1, Resolver.streamValue, r2]
      rw [if_neg hne, if_pos ⟨m1, m2, m3⟩, b7]
      rfl
    obtain ⟨i2, k1, rfl⟩ := runWith_item [.name (imageName i)] "Do" (f := opXObject E.R) (s := { s with gstack := [(s.tmatrix, s.text, s.graphics)], tmatrix := M })
      (s1 := { s with gstack := [(s.tmatrix, s.text, s.graphics)], tmatrix := M, done := [.image d raw (imageBbox M)] })
      (by intro a ha n; simp at ha; subst ha; simp) rfl rfl b7 hdo rfl (by simp) h2
    have h3 := runWith_quiet [] "Q" (f := opRestore) (s := { s with gstack := [(s.tmatrix, s.text, s.graphics)], tmatrix := M, done := [] }) (s1 := { s with done := [] })
      (by simp) rfl rfl rfl (by simp only [opRestore, b5]) rfl k1
    refine ⟨σ, _, [_], i2, .image hi fun hb => ?_, h3, ⟨b1, b2, b3, b4, b5, b6, rfl, b8, b9, b10, b11, b12, b13, b14, b15, b16⟩, rfl⟩
    rw [hM, b1]
    exact imageBbox_smallest _ _ _ _ _ _ hb
  | text size x y str =>
    obtain ⟨⟨t, ht⟩, -⟩ := hm
    have h0 : (Mark.text size x y str).ops ++ os = [] ++ operator "BT" :: ([.name (asc "F1"), size.obj] ++ operator "Tf" :: ([x.obj, y.obj] ++ operator "Td" ::
        ([.str str] ++ operator "Tj" :: ([] ++ operator "ET" :: os)))) := by
      simp [Mark.ops]
    rw [h0] at h
    have h1 := runWith_quiet [] "BT" (f := opBegin) (s1 := { newLine s (fun t => { t with matrix := Mat.identity }) with block := some {} })
      (by simp) rfl rfl b7 (by simp only [opBegin, b8]) b7 h
    have h2 := runWith_quiet [.name (asc "F1"), size.obj] "Tf" (f := opFont) (s := { newLine s (fun t => { t with matrix := Mat.identity }) with block := some {} })
      (s1 := { newLine s (fun t => { t with matrix := Mat.identity, font := some f, fontsize := size.obj }) with block := some {} })
      (by intro a ha; simp at ha; rcases ha with rfl | rfl; exact name_operand _; exact Dec.operand _) rfl rfl b7 (by
        have hk : (Obj.name (asc "F1")).key = .ok (nm "F1") := rfl
        simp only [opFont, hk, newLine, b15]) b7 h1
    have h3 := runWith_quiet [x.obj, y.obj] "Td" (f := opMove) (s := { newLine s (fun t => { t with matrix := Mat.identity, font := some f, fontsize := size.obj }) with block := some {} })
      (s1 := { newLine (newLine s (fun t => { t with matrix := Mat.identity, font := some f, fontsize := size.obj })) (fun t => { t with matrix := ⟨1, 0, 0, 1, x.val, y.val⟩ }) with block := some {} })
      (by intro a ha; simp at ha; rcases ha with rfl | rfl <;> exact Dec.operand _) rfl rfl b7 (by
        simp only [opMove, Dec.num_ok, bind, Except.bind, newLine, Mat.identity]
        norm_num) b7 h2
    obtain ⟨S, hS⟩ : ∃ S, S = { newLine (newLine s (fun t => { t with matrix := Mat.identity, font := some f, fontsize := size.obj })) (fun t => { t with matrix := ⟨1, 0, 0, 1, x.val, y.val⟩ }) with block := some {} } := ⟨_, rfl⟩
    rw [← hS] at h3
    have hl : S.lines[S.text.linematrix]?.getD (0, 0) = (0, 0) := by
      rw [hS]
      simp [newLine]
    have hsd : S.done = [] := by rw [hS]; exact b7
    obtain ⟨s1, i1, i2, g1, g2, g3, rfl⟩ := runWith_op (as := [.str str]) (n := asc "Tj") (f := opShow) (by intro a ha n; simp at ha; subst ha; simp) rfl hsd h3
    simp only [opShow, showText] at g1
    rw [show S.text.font = some f by rw [hS]; rfl, show S.block = some {} by rw [hS]] at g1
    simp only at g1
    rw [hl] at g1
    split at g1
    · cases g1
    rename_i cb line hcb
    cases g1
    simp only [hsd, finish] at g2
    cases g2
    obtain ⟨i3, k1, rfl⟩ := runWith_item [] "ET" (f := opEnd) (i := .text ⟨some cb.bbox, [cb]⟩)
      (s1 := { S with block := none, lines := S.lines.set S.text.linematrix line, done := [.text ⟨some cb.bbox, [cb]⟩] }) (by simp) rfl rfl rfl (by
        simp only [opEnd, growBbox]
        rfl) rfl (by simp) g3
    refine ⟨σ, _, [_], i3, .text (b := cb) ?_, k1, ?_, rfl⟩
    · rw [show S.tmatrix = Mat.identity by rw [hS]; exact b1, show S.graphics.ncolor = σ.fill by rw [hS]; exact b2] at hcb
      obtain ⟨codes, ts, q1, q2, q3, _⟩ := ht
      refine string_block ⟨codes, ts, q1, q2, q3⟩ ?_ ?_ ?_ ?_ ?_ ?_ ?_ hcb <;> rw [hS] <;> first | exact b10 | exact b11 | exact b12 | exact b13 | exact b14 | rfl
    · rw [hS]
      exact ⟨b1, b2, b3, b4, b5, b6, rfl, rfl, b9, b10, b11, b12, b13, b14, b15, b16⟩

end Pdf

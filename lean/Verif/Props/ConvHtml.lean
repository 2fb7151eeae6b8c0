import Verif.Spec.ConvHtml
import Verif.Props.ConvXml
import Verif.Props.Layout
import Mathlib.Tactic.Linarith
import Mathlib.Tactic.Ring
import Mathlib.Tactic.FieldSimp
/-! Properties C86 and C87: the HTML converter. -/

namespace Pdf

open Spec (Shows PageShows XmlName XmlValue WritesAttrs WritesXml XmlEvent XmlContent chars Tag starts ReadsTag blank inked visible SvgNumber
  SvgData SvgSteps svgLetter svgPosition svgWidth HtmlColor EmptyColor CurveRefused Refused HtmlOk NoMarkup HtmlItem ItemHtml PageHtml BlockHtml
  CurveHtml ColorAttr PlainNumber operator)

/-! ### Lists -/

theorem mapM_none {α β : Type} {f : α → Option β} {l : List α} : l.mapM f = none ↔ ∃ a ∈ l, f a = none := by
  induction l with
  | nil => simp
  | cons a l ih =>
    rw [List.mapM_cons]
    cases h : f a with
    | none => simp [h]
    | some b =>
      cases h2 : l.mapM f with
      | none => simp only [h2, true_iff] at ih; obtain ⟨x, hx, e⟩ := ih; simp only [Option.bind_eq_bind, Option.bind_some, Option.bind_none, true_iff]; exact ⟨x, List.mem_cons_of_mem _ hx, e⟩
      | some r =>
        rw [h2] at ih
        simp only [Option.bind_eq_bind, Option.bind_some, Option.pure_def, reduceCtorEq, false_iff]
        rintro ⟨x, hx, e⟩
        rcases List.mem_cons.1 hx with rfl | hx
        · rw [h] at e; cases e
        · exact absurd (ih.2 ⟨x, hx, e⟩) (by simp)

theorem mapM_some {α β : Type} {f : α → Option β} {l : List α} {r : List β} (h : l.mapM f = some r) : List.Forall₂ (fun a b => f a = some b) l r := by
  induction l generalizing r with
  | nil => cases h; exact .nil
  | cons a l ih =>
    rw [List.mapM_cons] at h
    cases h1 : f a with
    | none => rw [h1] at h; cases h
    | some b =>
      cases h2 : l.mapM f with
      | none => rw [h1, h2] at h; cases h
      | some r' =>
        rw [h1, h2] at h
        simp only [Option.bind_eq_bind, Option.bind_some, Option.pure_def, Option.some.injEq] at h
        subst h
        exact .cons h1 (ih h2)

theorem intercalate_cons2 (sep a b : PyStr) (l : List PyStr) : List.intercalate sep (a :: b :: l) = a ++ sep ++ List.intercalate sep (b :: l) := by
  simp [List.intercalate]

theorem intercalate_one (sep a : PyStr) : List.intercalate sep [a] = a := by simp [List.intercalate]

theorem hStyle_css (l : List (PyStr × PyStr)) : hStyle l = Spec.css l := by
  unfold Spec.css
  induction l with
  | nil => rfl
  | cons p l ih =>
    cases l with
    | nil => rw [List.map_singleton, intercalate_one]; rfl
    | cons q l =>
      rw [List.map_cons, List.map_cons, intercalate_cons2]
      have : hStyle (p :: q :: l) = p.1 ++ [0x3a, 0x20] ++ p.2 ++ [0x3b] ++ hStyle (q :: l) := rfl
      rw [this, ih]; rfl

theorem commaList_args (env : HtmlEnv) (l : List Obj) : commaList env l = Spec.colorArgs env l := by
  unfold Spec.colorArgs
  induction l with
  | nil => rfl
  | cons p l ih =>
    cases l with
    | nil => rw [List.map_singleton, intercalate_one]; rfl
    | cons q l =>
      rw [List.map_cons, List.map_cons, intercalate_cons2]
      have : commaList env (p :: q :: l) = env.valueStr p ++ pstr "," ++ commaList env (q :: l) := rfl
      rw [this, ih]; rfl

theorem spaceList_intercalate (l : List PyStr) : spaceList l = List.intercalate (pstr " ") l := by
  induction l with
  | nil => rfl
  | cons p l ih =>
    cases l with
    | nil => rw [intercalate_one]; rfl
    | cons q l =>
      rw [intercalate_cons2]
      have : spaceList (p :: q :: l) = p ++ pstr " " ++ spaceList (q :: l) := rfl
      rw [this, ih]

/-! ### Colours -/

theorem plainNumber_iff (o : Obj) (q : ℚ) : plainNumber o = some q ↔ PlainNumber o q := by
  constructor
  · intro h
    cases o <;> simp only [plainNumber, Option.some.injEq, reduceCtorEq] at h
    · rw [← h]; exact .int
    · rw [← h]; exact .real
  · intro h
    cases h <;> rfl

theorem hColor_some {env : HtmlEnv} {c : Color} {d t : PyStr} (h : hColor env c d = some t) : HtmlColor env d c t := by
  obtain ⟨space, vs⟩ := c
  unfold hColor at h
  cases space with
  | none => simp only [Option.some.injEq] at h; subst h; exact .absent
  | some cs =>
    dsimp only at h
    split at h
    · next h1 =>
      cases vs with
      | nil => cases h
      | cons v vs =>
        dsimp only at h
        cases hp : plainNumber v with
        | some q => rw [hp] at h; simp only [Option.some.injEq] at h; subst h; exact .gray h1 ((plainNumber_iff _ _).1 hp)
        | none =>
          rw [hp] at h; simp only [Option.some.injEq] at h; subst h
          rw [namedColor, commaList_args]
          exact .grayOther h1 (fun q hq => by rw [(plainNumber_iff _ _).2 hq] at hp; cases hp)
    · next h1 =>
      split at h
      · next h3 => simp only [Option.some.injEq] at h; subst h; rw [commaList_args]; exact .rgb h3
      · next h3 =>
        split at h
        · next h4 => simp only [Option.some.injEq] at h; subst h; rw [commaList_args]; exact .cmyk h4
        · next h4 => simp only [Option.some.injEq] at h; subst h; rw [namedColor, commaList_args]; exact .other h1 h3 h4

theorem hColor_none {env : HtmlEnv} {c : Color} {d : PyStr} : hColor env c d = none ↔ EmptyColor c := by
  obtain ⟨space, vs⟩ := c
  unfold hColor EmptyColor
  cases space with
  | none => simp
  | some cs =>
    dsimp only
    split
    · next h1 =>
      cases vs with
      | nil => simp [h1]
      | cons v vs => dsimp only; cases plainNumber v <;> simp
    · next h1 =>
      have : ¬ ∃ cs', (⟨some cs, vs⟩ : Color) = ⟨some cs', []⟩ ∧ cs'.ncomponents.num? = some 1 := by
        rintro ⟨cs', e, h⟩
        cases e
        exact h1 h
      split
      · simpa using this
      · split <;> simpa using this

/-! ### Pictures -/

theorem svgScale_none (b : Bbox) : svgScale b = none ↔ b.x0 = b.x1 ∧ b.y1 ≤ b.y0 := by
  unfold svgScale Bbox.height
  split
  · next h => simp only [reduceCtorEq, false_iff]; rintro ⟨_, h2⟩; linarith
  · next h =>
    split
    · next h2 => simp only [true_iff]; exact ⟨by linarith, by linarith⟩
    · next h2 => simp only [reduceCtorEq, false_iff]; rintro ⟨h3, _⟩; exact h2 (by linarith)

theorem svgScale_some {b : Bbox} {dx dy view : ℚ} (h : svgScale b = some (dx, dy, view)) :
    (∀ x y, ((x - b.x0) * dx, (b.height - (y - b.y0)) * dy) = svgPosition b (x, y)) ∧ view = svgWidth b := by
  unfold svgScale at h
  unfold svgPosition svgWidth
  by_cases h1 : 0 < b.height
  · rw [if_pos h1] at h
    simp only [Bbox.height, Bbox.width] at *
    have hy : b.y0 < b.y1 := by linarith
    simp only [Option.some.injEq, Prod.mk.injEq] at h
    obtain ⟨rfl, rfl, rfl⟩ := h
    refine ⟨fun x y => ?_, (if_pos hy).symm⟩
    have hne : b.y1 - b.y0 ≠ 0 := by linarith
    rw [if_pos hy]
    refine Prod.ext ?_ ?_
    · dsimp only
      split
      · next hw => rw [max_eq_right hw.le]; field_simp
      · next hw =>
        rw [max_eq_left (not_lt.1 hw)]
        have : b.x1 - b.x0 ≠ 0 := by intro e; rw [e] at hw; norm_num at hw
        field_simp
    · dsimp only; field_simp; ring
  · rw [if_neg h1] at h
    simp only [Bbox.height] at *
    have hy : ¬ b.y0 < b.y1 := by intro h; exact h1 (by linarith)
    by_cases h2 : b.x1 - b.x0 = 0
    · rw [if_pos h2] at h; cases h
    · rw [if_neg h2] at h
      simp only [Option.some.injEq, Prod.mk.injEq] at h
      obtain ⟨rfl, rfl, rfl⟩ := h
      refine ⟨fun x y => ?_, (if_neg hy).symm⟩
      rw [if_neg hy]
      refine Prod.ext ?_ ?_
      · dsimp only; field_simp
      · dsimp only; ring

theorem svgPoint_some {env : HtmlEnv} {b : Bbox} {dx dy view : ℚ} (hs : svgScale b = some (dx, dy, view)) {p : Option ℚ × Option ℚ} {t : PyStr}
    (h : svgPoint env b dx dy p = some t) :
    ∃ q : ℚ × ℚ, p = (some q.1, some q.2) ∧ t = env.fmt (svgPosition b q).1 ++ pstr " " ++ env.fmt (svgPosition b q).2 := by
  obtain ⟨x, y⟩ := p
  cases x with
  | none => cases h
  | some x =>
    cases y with
    | none => cases h
    | some y =>
      simp only [svgPoint, Option.some.injEq] at h
      have e := (svgScale_some hs).1 x y
      exact ⟨(x, y), rfl, by rw [← h, ← e]⟩

theorem svgPoint_none {env : HtmlEnv} {b : Bbox} {dx dy : ℚ} {p : Option ℚ × Option ℚ} : svgPoint env b dx dy p = none ↔ p.1 = none ∨ p.2 = none := by
  obtain ⟨x, y⟩ := p
  cases x <;> cases y <;> simp [svgPoint]

theorem svgPoints_some {env : HtmlEnv} {b : Bbox} {dx dy view : ℚ} (hs : svgScale b = some (dx, dy, view)) {l : List (Option ℚ × Option ℚ)}
    {ts : List PyStr} (h : l.mapM (svgPoint env b dx dy) = some ts) :
    ∃ pts : List (ℚ × ℚ), l = pts.map (fun q => (some q.1, some q.2)) ∧
      spaceList ts = List.intercalate (pstr " ") (pts.flatMap fun q => [env.fmt (svgPosition b q).1, env.fmt (svgPosition b q).2]) := by
  replace h := mapM_some h
  induction h with
  | nil => exact ⟨[], rfl, rfl⟩
  | cons h1 _ ih =>
    obtain ⟨q, rfl, rfl⟩ := svgPoint_some hs h1
    obtain ⟨pts, rfl, e⟩ := ih
    refine ⟨q :: pts, rfl, ?_⟩
    rw [List.flatMap_cons]
    rw [spaceList_intercalate] at e ⊢
    rename_i ts' hts
    cases pts with
    | nil =>
      have : ts' = [] := by cases hts; rfl
      subst this
      rw [intercalate_one]
      rw [List.flatMap_nil, List.append_nil, intercalate_cons2, intercalate_one]
    | cons q' pts =>
      cases ts' with
      | nil => cases hts
      | cons t' ts' =>
        rw [intercalate_cons2, e]
        rw [List.flatMap_cons]
        simp only [List.cons_append, List.nil_append]
        rw [intercalate_cons2 _ (env.fmt (svgPosition b q).1), intercalate_cons2 _ (env.fmt (svgPosition b q).2)]
        simp only [List.append_assoc]

theorem svgStep_none {env : HtmlEnv} {b : Bbox} {dx dy : ℚ} {p : CurvePath} :
    svgStep env b dx dy p = none ↔ svgLetter p.method ∈ [some 'M', some 'L', some 'C'] ∧ ∃ q ∈ p.points, q.1 = none ∨ q.2 = none := by
  have key : p.points.mapM (svgPoint env b dx dy) = none ↔ ∃ q ∈ p.points, q.1 = none ∨ q.2 = none := by
    rw [mapM_none]
    exact exists_congr fun q => and_congr_right fun _ => svgPoint_none
  unfold svgStep
  cases p.method with
  | moveTo => rw [← key]; simp [svgLetter]
  | lineTo => rw [← key]; simp [svgLetter]
  | curveBothTo => rw [← key]; simp [svgLetter]
  | curveNextTo => simp [svgLetter]
  | curveFirstTo => simp [svgLetter]
  | closePath => simp [svgLetter]

theorem svgPath_none {env : HtmlEnv} {b : Bbox} {dx dy : ℚ} {paths : List CurvePath} :
    svgPath env b dx dy paths = none ↔
      ∃ p ∈ paths, svgLetter p.method ∈ [some 'M', some 'L', some 'C'] ∧ ∃ q ∈ p.points, q.1 = none ∨ q.2 = none := by
  unfold svgPath
  rw [Option.map_eq_none_iff, mapM_none]
  exact exists_congr fun p => and_congr_right fun _ => svgStep_none

theorem svgPath_some {env : HtmlEnv} (henv : ∀ q, SvgNumber (env.fmt q)) {b : Bbox} {dx dy view : ℚ} (hs : svgScale b = some (dx, dy, view))
    {paths : List CurvePath} (hp : ∀ p ∈ paths, p.method ≠ .closePath → p.points ≠ []) {d : PyStr} (h : svgPath env b dx dy paths = some d) :
    ∃ steps, SvgData d steps ∧ SvgSteps env.toConvEnv b paths steps := by
  unfold svgPath at h
  rw [Option.map_eq_some_iff] at h
  obtain ⟨ds, h, rfl⟩ := h
  replace h := mapM_some h
  induction h with
  | nil => exact ⟨[], .nil, .nil⟩
  | cons h1 _ ih =>
    rename_i p t paths ts _
    obtain ⟨steps, i1, i2⟩ := ih (fun p hm => hp p (List.mem_cons_of_mem _ hm))
    have hp := hp p List.mem_cons_self
    rw [List.flatten_cons]
    have key : ∀ c : Char, c ∈ ['M', 'L', 'C'] → svgLetter p.method = some c → p.points ≠ [] →
        ((p.points.mapM (svgPoint env b dx dy)).map fun l => [c.toNat] ++ spaceList l ++ pstr " ") = some t →
        ∃ steps, SvgData (t ++ ts.flatten) steps ∧ SvgSteps env.toConvEnv b (p :: paths) steps := by
      intro c hc hl hne hk
      rw [Option.map_eq_some_iff] at hk
      obtain ⟨l, hk, rfl⟩ := hk
      obtain ⟨pts, e1, e2⟩ := svgPoints_some hs hk
      refine ⟨_, ?_, .step hl (by rintro rfl; revert hc; decide) e1 i2⟩
      have := SvgData.command (c := c) (ns := pts.flatMap fun q => [env.fmt (svgPosition b q).1, env.fmt (svgPosition b q).2]) hc (by
        intro e
        cases pts with
        | nil => exact hne (by rw [e1]; rfl)
        | cons q pts => cases e) (by
        intro n hn
        obtain ⟨q, _, hq⟩ := List.mem_flatMap.1 hn
        simp only [List.mem_cons, List.not_mem_nil, or_false] at hq
        rcases hq with rfl | rfl <;> exact henv _) i1
      rw [e2]
      simpa only [List.append_assoc, List.cons_append, List.nil_append] using this
    unfold svgStep at h1
    cases hm : p.method with
    | moveTo => rw [hm] at h1 hp; exact key 'M' (by decide) (by rw [hm]; rfl) (hp (by decide)) h1
    | lineTo => rw [hm] at h1 hp; exact key 'L' (by decide) (by rw [hm]; rfl) (hp (by decide)) h1
    | curveBothTo => rw [hm] at h1 hp; exact key 'C' (by decide) (by rw [hm]; rfl) (hp (by decide)) h1
    | curveNextTo =>
      rw [hm] at h1; simp only [Option.some.injEq] at h1; subst h1
      exact ⟨steps, i1, .left (by rw [hm]; rfl) i2⟩
    | curveFirstTo =>
      rw [hm] at h1; simp only [Option.some.injEq] at h1; subst h1
      exact ⟨steps, i1, .left (by rw [hm]; rfl) i2⟩
    | closePath =>
      rw [hm] at h1; simp only [Option.some.injEq] at h1; subst h1
      exact ⟨_, .close i1, .close (by rw [hm]; rfl) i2⟩

/-! ### Path data can be read in one way -/

theorem number_not {n : PyStr} (h : SvgNumber n) {c : Nat} (hc : c ∉ pstr "0123456789+-.e") : c ∉ n := fun hm => hc (h.2 c hm)

theorem word_unique {a b x y : PyStr} {c d : Nat} (ha : c ∉ a ∧ d ∉ a) (hb : c ∉ b ∧ d ∉ b) {u v : Nat} (hu : u = c ∨ u = d) (hv : v = c ∨ v = d)
    (e : a ++ u :: x = b ++ v :: y) : a = b ∧ u = v ∧ x = y := by
  induction a generalizing b with
  | nil =>
    cases b with
    | nil => simp only [List.nil_append, List.cons.injEq] at e; exact ⟨rfl, e.1, e.2⟩
    | cons w b =>
      simp only [List.nil_append, List.cons_append, List.cons.injEq] at e
      have := e.1
      subst this
      rcases hu with rfl | rfl <;> simp at hb
  | cons w a ih =>
    cases b with
    | nil =>
      simp only [List.nil_append, List.cons_append, List.cons.injEq] at e
      have := e.1
      subst this
      rcases hv with rfl | rfl <;> simp at ha
    | cons w' b =>
      simp only [List.cons_append, List.cons.injEq] at e
      obtain ⟨rfl, e⟩ := e
      simp only [List.mem_cons, not_or] at ha hb
      obtain ⟨rfl, h2, h3⟩ := ih ⟨ha.1.2, ha.2.2⟩ ⟨hb.1.2, hb.2.2⟩ e
      exact ⟨rfl, h2, h3⟩

theorem svgData_head {t : PyStr} {l : List (Char × List PyStr)} (h : SvgData t l) : ∀ c r, t = c :: r → c ∉ pstr "0123456789+-.e" := by
  intro c r e
  cases h with
  | nil => cases e
  | close _ =>
    have : pstr "Z" = [0x5a] := rfl
    rw [this] at e
    simp only [List.cons_append, List.cons.injEq] at e
    rw [← e.1]; decide
  | command hc _ _ _ =>
    simp only [List.cons.injEq] at e
    rw [← e.1]
    simp only [List.mem_cons, List.not_mem_nil, or_false] at hc
    rcases hc with rfl | rfl | rfl <;> decide

theorem numbers_unique {ns ms : List PyStr} {x y : PyStr} (hn : ns ≠ []) (hm : ms ≠ []) (h1 : ∀ n ∈ ns, SvgNumber n) (h2 : ∀ n ∈ ms, SvgNumber n)
    (hx : ∀ c r, x = c :: r → c ∉ pstr "0123456789+-.e") (hy : ∀ c r, y = c :: r → c ∉ pstr "0123456789+-.e")
    (e : List.intercalate (pstr " ") ns ++ pstr " " ++ x = List.intercalate (pstr " ") ms ++ pstr " " ++ y) : ns = ms ∧ x = y := by
  have sp : (0x20 : Nat) ∉ pstr "0123456789+-.e" := by decide
  have s1 : pstr " " = [0x20] := rfl
  induction ns generalizing ms with
  | nil => exact absurd rfl hn
  | cons n ns ih =>
    cases ms with
    | nil => exact absurd rfl hm
    | cons m ms =>
      have n1 := number_not (h1 n List.mem_cons_self) sp
      have m1 := number_not (h2 m List.mem_cons_self) sp
      have head : ∀ (k : PyStr) (ks : List PyStr), SvgNumber k → ∃ c r, List.intercalate (pstr " ") (k :: ks) = c :: r ∧ c ∈ pstr "0123456789+-.e" := by
        intro k ks hk
        obtain ⟨c, r, rfl⟩ := List.exists_cons_of_ne_nil hk.1
        cases ks with
        | nil => exact ⟨c, r, intercalate_one _ _, hk.2 c List.mem_cons_self⟩
        | cons q qs => exact ⟨c, _, by rw [intercalate_cons2]; rfl, hk.2 c List.mem_cons_self⟩
      have tail : ∀ (ks : List PyStr) (k z : PyStr), ∃ r, List.intercalate (pstr " ") (k :: ks) ++ pstr " " ++ z = k ++ 0x20 :: r ∧
          r = if ks = [] then z else List.intercalate (pstr " ") ks ++ pstr " " ++ z := by
        intro ks k z
        cases ks with
        | nil => exact ⟨z, by rw [intercalate_one, s1, List.append_assoc]; rfl, rfl⟩
        | cons q qs => exact ⟨_, by rw [if_neg (by simp), intercalate_cons2, s1]; simp only [List.append_assoc, List.cons_append, List.nil_append], rfl⟩
      obtain ⟨r1, e1, hr1⟩ := tail ns n x
      obtain ⟨r2, e2, hr2⟩ := tail ms m y
      rw [e1, e2] at e
      obtain ⟨rfl, _, e⟩ := word_unique ⟨n1, n1⟩ ⟨m1, m1⟩ (.inl rfl) (.inl rfl) e
      subst e
      cases ns with
      | nil =>
        rw [if_pos rfl] at hr1
        cases ms with
        | nil => rw [if_pos rfl] at hr2; exact ⟨rfl, hr1.symm.trans hr2⟩
        | cons q qs =>
          exfalso
          rw [if_neg (by simp)] at hr2
          obtain ⟨c, r, hc, hc2⟩ := head q qs (h2 q (by simp))
          rw [hc] at hr2
          exact hx c _ (hr1.symm.trans hr2) hc2
      | cons q qs =>
        rw [if_neg (by simp)] at hr1
        cases ms with
        | nil =>
          exfalso
          rw [if_pos rfl] at hr2
          obtain ⟨c, r, hc, hc2⟩ := head q qs (h1 q (by simp))
          rw [hc] at hr1
          exact hy c _ (hr2.symm.trans hr1) hc2
        | cons q' qs' =>
          rw [if_neg (by simp)] at hr2
          obtain ⟨h3, h4⟩ := ih (by simp) (by simp) (fun n h => h1 n (List.mem_cons_of_mem _ h)) (fun n h => h2 n (List.mem_cons_of_mem _ h)) (hr1.symm.trans hr2)
          exact ⟨by rw [h3], h4⟩

/-- Path data can be read in one way only. -/
theorem svg_data_unique (t : PyStr) (l l' : List (Char × List PyStr)) (h : SvgData t l) (h' : SvgData t l') : l = l' := by
  have z1 : pstr "Z" = [0x5a] := rfl
  have hz : ∀ c : Char, c ∈ ['M', 'L', 'C'] → c.toNat ≠ 0x5a := by decide
  induction h generalizing l' with
  | nil =>
    generalize ht : ([] : PyStr) = t at h'
    cases h' with
    | nil => rfl
    | close _ => rw [z1] at ht; cases ht
    | command _ _ _ _ => cases ht
  | close _ ih =>
    rename_i t l _
    generalize ht : pstr "Z" ++ t = t' at h'
    rw [z1] at ht
    cases h' with
    | nil => cases ht
    | close h2 =>
      rw [z1] at ht
      simp only [List.cons_append, List.nil_append, List.cons.injEq, true_and] at ht
      subst ht
      rw [ih _ h2]
    | command hc _ _ _ => simp only [List.cons_append, List.nil_append, List.cons.injEq] at ht; exact absurd ht.1.symm (hz _ hc)
  | command hc hn h1 h2 ih =>
    rename_i c ns t l
    generalize ht : c.toNat :: (List.intercalate (pstr " ") ns ++ pstr " " ++ t) = t' at h'
    cases h' with
    | nil => cases ht
    | close h2 => rw [z1] at ht; simp only [List.cons_append, List.nil_append, List.cons.injEq] at ht; exact absurd ht.1 (hz _ hc)
    | command hc' hn' h1' h2' =>
      simp only [List.cons.injEq] at ht
      obtain ⟨e1, e2⟩ := ht
      obtain ⟨rfl, rfl⟩ := numbers_unique hn hn' h1 h1' (svgData_head h2) (svgData_head h2') e2
      have : ∀ c d : Char, c ∈ ['M', 'L', 'C'] → d ∈ ['M', 'L', 'C'] → c.toNat = d.toNat → c = d := by
        intro c d hc hd; revert hd d; revert hc c; decide
      rw [this _ _ hc hc' e1, ih _ h2']

/-! ### What is refused -/

theorem hCurve_none {env : HtmlEnv} {ph : ℚ} {c : Curve} : hCurve env ph c = none ↔ CurveRefused c := by
  unfold hCurve
  constructor
  · intro h
    cases h1 : svgScale c.bbox with
    | none => exact .dot ((svgScale_none _).1 h1).1 ((svgScale_none _).1 h1).2
    | some r =>
      obtain ⟨dx, dy, view⟩ := r
      rw [h1] at h
      cases h2 : svgPath env c.bbox dx dy c.paths with
      | none =>
        obtain ⟨p, hp, hl, q, hq, hn⟩ := svgPath_none.1 h2
        exact .point hp hl hq hn
      | some d =>
        cases h3 : hColor env c.stroke [] with
        | none => exact .stroke (hColor_none.1 h3)
        | some s =>
          cases h4 : hColor env c.fill [] with
          | none => exact .fill (hColor_none.1 h4)
          | some f => simp only [Option.bind_eq_bind, Option.bind_some, h2, h3, h4] at h; cases h
  · intro h
    cases h1 : svgScale c.bbox with
    | none => rfl
    | some r =>
      obtain ⟨dx, dy, view⟩ := r
      cases h with
      | dot hx hy => rw [(svgScale_none _).2 ⟨hx, hy⟩] at h1; cases h1
      | point hp hl hq hn =>
        have : svgPath env c.bbox dx dy c.paths = none := svgPath_none.2 ⟨_, hp, hl, _, hq, hn⟩
        simp [this]
      | fill hf =>
        have : hColor env c.fill [] = none := hColor_none.2 hf
        simp [this]
      | stroke hf =>
        have : hColor env c.stroke [] = none := hColor_none.2 hf
        simp [this]

theorem hCharBlock_none {env : HtmlEnv} {b : CharBlock} : hCharBlock env b = none ↔ env.fontWeight b.font = none ∨ EmptyColor b.color := by
  rw [← hColor_none (env := env) (d := pstr "black")]
  unfold hCharBlock
  cases env.fontWeight b.font <;> cases hColor env b.color (pstr "black") <;> simp

theorem hItems_none {env : HtmlEnv} {ph : ℚ} {l : List Item} (h : ∀ i ∈ l, (hItem env ph i = none ↔ Refused env i)) :
    hItems env ph l = none ↔ ∃ i ∈ l, Refused env i := by
  induction l with
  | nil => simp [hItems]
  | cons i l ih =>
    have h1 := h i List.mem_cons_self
    have h2 := ih (fun i hi => h i (List.mem_cons_of_mem _ hi))
    rw [hItems]
    cases ha : hItem env ph i with
    | none => rw [ha] at h1; simp only [true_iff] at h1; simp [h1]
    | some a =>
      rw [ha] at h1
      have h1 : ¬ Refused env i := by intro hr; have := h1.2 hr; cases this
      cases hb : hItems env ph l with
      | none => rw [hb] at h2; simpa [h1] using h2
      | some b => rw [hb] at h2; simpa [h1] using h2

theorem hItem_none (env : HtmlEnv) (ph : ℚ) (i : Item) : hItem env ph i = none ↔ Refused env i := by
  match i with
  | .none =>
    rw [hItem]
    simp only [reduceCtorEq, false_iff]
    intro h; cases h
  | .image d data b =>
    rw [hItem]
    simp only [reduceCtorEq, false_iff]
    intro h; cases h
  | .curve c =>
    rw [hItem, Option.map_eq_none_iff, hCurve_none]
    exact ⟨.curve, fun h => by cases h with | curve h => exact h⟩
  | .text b =>
    rw [hItem, Option.map_eq_none_iff, mapM_none]
    constructor
    · rintro ⟨cb, hc, h⟩
      rcases hCharBlock_none.1 h with h | h
      · exact .weight hc h
      · exact .color hc h
    · intro h
      cases h with
      | weight hc h => exact ⟨_, hc, hCharBlock_none.2 (.inl h)⟩
      | color hc h => exact ⟨_, hc, hCharBlock_none.2 (.inr h)⟩
  | .xobj s b r m children =>
    rw [hItem, Option.map_eq_none_iff, hItems_none (fun i _ => hItem_none env ph i)]
    constructor
    · rintro ⟨i, hi, h⟩; exact .xobj hi h
    · intro h
      cases h with
      | xobj hi h => exact ⟨_, hi, h⟩
termination_by i

/-- **C86.** The conversion to HTML fails exactly if a page has, at any depth, a curve that is a single point, a coordinate of a drawn step
that is not a number, a colour of a space with one component and no value, or a font whose weight cannot be told. -/
theorem html_refused (env : HtmlEnv) (codec : PyStr) (pages : List LtPage) :
    htmlFile env codec pages = none ↔ ∃ p ∈ pages, ∃ i ∈ p.items, Refused env i := by
  unfold htmlFile
  rw [Option.map_eq_none_iff, mapM_none]
  refine exists_congr fun p => and_congr_right fun _ => ?_
  rw [hPage, Option.map_eq_none_iff]
  exact hItems_none (fun i _ => hItem_none env _ i)

/-! ### Texts of attributes -/

/-- A text that an attribute can carry. -/
def Val (t : PyStr) : Prop := ∃ v, XmlValue t v

theorem val_append {a b : PyStr} (ha : Val a) (hb : Val b) : Val (a ++ b) := by
  obtain ⟨v, ha⟩ := ha
  induction ha with
  | nil => exact hb
  | plain h1 h2 h3 h4 h5 _ ih => obtain ⟨w, hw⟩ := ih; exact ⟨_, .plain h1 h2 h3 h4 h5 hw⟩
  | ref h1 _ ih => obtain ⟨w, hw⟩ := ih; rw [List.append_assoc]; exact ⟨_, .ref h1 hw⟩

theorem val_lit (s : PyStr) (h : (s.all fun c => Spec.xmlChar c && decide (0x20 ≤ c) && decide (c ≠ 0x3c) && decide (c ≠ 0x26) && decide (c ≠ 0x22)) = true) :
    Val s := ⟨s, plain_value s h⟩

theorem val_number {t : PyStr} (h : SvgNumber t) : Val t := by
  refine val_lit t (List.all_eq_true.2 fun c hc => ?_)
  have key : ∀ c ∈ pstr "0123456789+-.e", (Spec.xmlChar c && decide (0x20 ≤ c) && decide (c ≠ 0x3c) && decide (c ≠ 0x26) && decide (c ≠ 0x22)) = true := by
    decide
  exact key c (h.2 c hc)

theorem val_px {env : HtmlEnv} (henv : HtmlOk env) (q : ℚ) : Val (px env q) := val_append (val_number (henv.number q)) (val_lit _ (by decide))

theorem val_style {l : List (PyStr × PyStr)} (h : ∀ p ∈ l, Val p.1 ∧ Val p.2) : Val (hStyle l) := by
  induction l with
  | nil => exact ⟨[], .nil⟩
  | cons p l ih =>
    have h1 := h p List.mem_cons_self
    have h2 := ih (fun p hp => h p (List.mem_cons_of_mem _ hp))
    cases l with
    | nil => exact val_append (val_append h1.1 (val_lit _ (by decide))) h1.2
    | cons q l => exact val_append (val_append (val_append (val_append h1.1 (val_lit [0x3a, 0x20] (by decide))) h1.2) (val_lit [0x3b] (by decide))) h2

theorem val_commaList {env : HtmlEnv} (l : List Obj) (hv : ∀ o ∈ l, Val (env.valueStr o)) : Val (commaList env l) := by
  induction l with
  | nil => exact ⟨[], .nil⟩
  | cons p l ih =>
    cases l with
    | nil => exact hv p (by simp)
    | cons q l => exact val_append (val_append (hv p (by simp)) (val_lit (pstr ",") (by decide))) (ih fun o h => hv o (List.mem_cons_of_mem _ h))

theorem val_hColor {env : HtmlEnv} (henv : HtmlOk env) {c : Color} (hp : Spec.HtmlPaint env c) {d t : PyStr} (hd : Val d) (h : hColor env c d = some t) : Val t := by
  have lit : ∀ s : PyStr, _ → Val s := val_lit
  have paren : Val (pstr ")") := val_lit _ (by decide)
  have h := hColor_some h
  cases h with
  | absent => exact hd
  | gray _ _ => exact val_append (val_append (val_lit _ (by decide)) (val_number (henv.number _))) paren
  | grayOther _ _ =>
    rw [← commaList_args]
    exact val_append (val_append (val_append (hp _ rfl).1 (val_lit _ (by decide))) (val_commaList _ (hp _ rfl).2)) paren
  | rgb _ => rw [← commaList_args]; exact val_append (val_append (val_lit _ (by decide)) (val_commaList _ (hp _ rfl).2)) paren
  | cmyk _ => rw [← commaList_args]; exact val_append (val_append (val_lit _ (by decide)) (val_commaList _ (hp _ rfl).2)) paren
  | other _ _ _ =>
    rw [← commaList_args]
    exact val_append (val_append (val_append (hp _ rfl).1 (val_lit _ (by decide))) (val_commaList _ (hp _ rfl).2)) paren

theorem val_numText (n : Nat) : Val (numText n) := numText_value n

/-! ### The document -/

theorem visible_append (a b : List XmlEvent) : visible (a ++ b) = visible a ++ visible b := by
  induction a with
  | nil => rfl
  | cons e a ih =>
    cases e with
    | start t l => simpa [visible] using ih
    | stop t => simpa [visible] using ih
    | char c => simp only [List.cons_append, visible, ih]; split <;> rfl

theorem visible_chars (s : PyStr) : visible (chars s) = inked s := by
  induction s with
  | nil => rfl
  | cons c s ih =>
    have : chars (c :: s) = .char c :: chars s := rfl
    rw [this, visible, ih, inked, inked, List.filter_cons]
    cases blank c <;> simp

theorem visible_indentation (n : Nat) : visible (Spec.indentation n) = [] := by
  unfold Spec.indentation
  rw [visible_chars, inked, List.filter_eq_nil_iff]
  intro c hc
  rw [(List.mem_replicate.1 hc).2]
  decide

theorem visible_lineEnd : visible Spec.lineEnd = [] := by decide

theorem inked_append (a b : PyStr) : inked (a ++ b) = inked a ++ inked b := List.filter_append ..

/-- The calls make well-formed text with these visible characters and these tags. -/
def HOut (n : Nat) (b : XBody) (t : PyStr) (tags : List Tag) : Prop :=
  ∃ e, WritesXml n b e ∧ visible e = t ∧ List.Forall₂ ReadsTag tags (starts e)

theorem hout_nil (n : Nat) : HOut n .nil [] [] := ⟨[], .nil, rfl, .nil⟩

theorem hout_elm {n : Nat} {tag : PyStr} {attrs exp : List (PyStr × PyStr)} {nol : Bool} {body b : XBody} {t t' : PyStr} {tags tags' : List Tag}
    (hn : XmlName tag) (ha : AttrsOk attrs) (hexp : attrs.Perm exp) (hb : HOut (n + 1) body t tags) (h : HOut n b t' tags') :
    HOut n (.cons (.elm tag attrs false nol body) b) (t ++ t') ((tag, exp) :: tags ++ tags') := by
  obtain ⟨as, ha, hd⟩ := attrsOk_writes ha
  obtain ⟨e, h1, h2, h5⟩ := hb
  obtain ⟨e', h3, h4, h6⟩ := h
  refine ⟨_, .elm hn ha hd h1 h3, ?_, ?_⟩
  · cases nol <;> simp only [visible_append, visible_indentation, visible_lineEnd, Bool.false_eq_true, if_false, if_true, visible, h2, h4,
      List.nil_append, List.append_nil]
  · have : starts (if nol = true then [] else Spec.lineEnd) = [] := by cases nol <;> rfl
    simp only [starts_append, this, Spec.indentation, Bool.false_eq_true, if_false, starts_chars, starts, List.nil_append, List.append_nil]
    simp only [Spec.lineEnd, starts_chars, List.nil_append]
    exact forall2_append (.cons ⟨rfl, attrs, hexp, ha⟩ h5) h6

theorem hout_single {n : Nat} {tag : PyStr} {attrs exp : List (PyStr × PyStr)} {b : XBody} {t' : PyStr} {tags' : List Tag} (hn : XmlName tag)
    (ha : AttrsOk attrs) (hexp : attrs.Perm exp) (h : HOut n b t' tags') : HOut n (.cons (.single tag attrs) b) t' ((tag, exp) :: tags') := by
  obtain ⟨as, ha, hd⟩ := attrsOk_writes ha
  obtain ⟨e', h3, h4, h6⟩ := h
  refine ⟨_, .single hn ha hd h3, ?_, ?_⟩
  · simp only [visible_append, visible_indentation, visible_lineEnd, visible, h4, List.nil_append]
  · simp only [starts_append, Spec.indentation, Spec.lineEnd, starts_chars, starts, List.nil_append, List.append_nil]
    exact .cons ⟨rfl, attrs, hexp, ha⟩ h6

theorem hout_text {n : Nat} {t : PyStr} {s : PyStr} (h : XmlContent t (chars s)) : HOut n (.cons (.text t false) .nil) (inked s) [] := by
  refine ⟨_, .text h .nil, ?_, ?_⟩
  · simp only [visible_append, visible_indentation, visible_lineEnd, visible_chars, visible, List.nil_append, List.append_nil]
  · simp only [starts_append, Spec.indentation, Spec.lineEnd, starts_chars, starts, List.nil_append]; exact .nil

theorem noMarkup_content {s : PyStr} (h : NoMarkup s) : XmlContent s (chars s) := by
  induction s with
  | nil => exact .nil
  | cons c s ih =>
    obtain ⟨h1, h2, h3, h4⟩ := h c List.mem_cons_self
    exact .char h1 h2 h3 h4 (ih (fun c hc => h c (List.mem_cons_of_mem _ hc)))

theorem hout_append {n : Nat} {a b : XBody} {t t' : PyStr} {tags tags' : List Tag} (h : HOut n a t tags) (h' : HOut n b t' tags') :
    HOut n (a.append b) (t ++ t') (tags ++ tags') := by
  obtain ⟨e, h1, h2, h5⟩ := h
  obtain ⟨e', h3, h4, h6⟩ := h'
  refine ⟨e ++ e', writesXml_append h1 h3, ?_, ?_⟩
  · rw [visible_append, h2, h4]
  · rw [starts_append]; exact forall2_append h5 h6

/-- The attributes with fixed names, the last of them `style`. -/
theorem styled_ok {attrs css : List (PyStr × PyStr)} (keys : List PyStr) (hk : attrs.map Prod.fst = keys)
    (hkeys : ((keys ++ [pstr "style"]).all fun n => match n with | [] => false | c :: r => Spec.nameStart c && r.all Spec.nameChar) = true)
    (nd : (keys ++ [pstr "style"]).Nodup) (hv : ∀ p ∈ attrs, Val p.2) (hc : ∀ p ∈ css, Val p.1 ∧ Val p.2) : AttrsOk (styled attrs css) := by
  refine attrsOk_of _ (keys ++ [pstr "style"]) (by rw [styled, List.map_append, hk]; rfl) hkeys nd ?_
  intro p hp
  rcases List.mem_append.1 hp with hp | hp
  · exact hv p hp
  · rw [List.mem_singleton.1 hp]; exact val_style hc

theorem sizeCss_ok {env : HtmlEnv} (henv : HtmlOk env) (b : Bbox) : ∀ p ∈ sizeCss env b, Val p.1 ∧ Val p.2 := by
  intro p hp
  simp only [sizeCss, List.mem_cons, List.not_mem_nil, or_false] at hp
  rcases hp with rfl | rfl | rfl | rfl | rfl | rfl <;> exact ⟨by dsimp only; exact val_lit _ (by decide), val_px henv _⟩

theorem chars_hout {env : HtmlEnv} (henv : HtmlOk env) (n : Nat) (l : List (Text × Bbox × ℚ)) (h : ∀ c ∈ l, ∃ s, XmlContent c.1 (chars s) ∧ s = c.1) :
    HOut n (XBody.ofList (l.map (hChar env))) (inked (l.flatMap fun c => c.1))
      (l.map fun c => (pstr "span", [(pstr "class", pstr "char"), (pstr "style", Spec.css (Spec.sizes env.toConvEnv c.2.1))])) := by
  induction l with
  | nil => exact hout_nil n
  | cons c l ih =>
    obtain ⟨s, h1, rfl⟩ := h c List.mem_cons_self
    rw [List.flatMap_cons, inked_append]
    refine hout_elm (xmlName_dec (by decide)) (styled_ok [pstr "class"] rfl (by decide) (by decide) ?_ (sizeCss_ok henv _)) ?_ (hout_text h1)
      (ih (fun c hc => h c (List.mem_cons_of_mem _ hc)))
    · intro p hp; rw [List.mem_singleton.1 hp]; exact val_lit _ (by decide)
    · rw [styled, hStyle_css]; exact .refl _

theorem block_hout {env : HtmlEnv} (henv : HtmlOk env) (n : Nat) (b : CharBlock) (h : ∀ c ∈ b.chars, NoMarkup c.1) (hf : Spec.HtmlFont env b.font)
    (hpt : Spec.HtmlPaint env b.color) {x : XNode}
    (hx : hCharBlock env b = some x) : ∃ tags, BlockHtml env b tags ∧ HOut n (.cons x .nil) (inked b.text) tags := by
  unfold hCharBlock at hx
  cases hw : env.fontWeight b.font with
  | none => rw [hw] at hx; cases hx
  | some w =>
    rw [hw] at hx
    cases hc : hColor env b.color (pstr "black") with
    | none => rw [hc] at hx; cases hx
    | some col =>
      rw [hc] at hx
      simp only [Option.bind_eq_bind, Option.bind_some, Option.pure_def, Option.some.injEq] at hx
      subst hx
      refine ⟨_, .mk hw (hColor_some hc), ?_⟩
      have := hout_elm (n := n) (tag := pstr "span") (nol := false) (exp := [(pstr "class", pstr "char-block"), (pstr "style", Spec.css
          ([(pstr "position", pstr "absolute"), (pstr "left", env.fmt b.bbox.x0), (pstr "bottom", env.fmt b.bbox.y0),
            (pstr "font-size", Spec.pixels env.toConvEnv b.size), (pstr "font-family", env.fontName b.font), (pstr "font-weight", w),
            (pstr "color", col)] ++ Spec.sizes env.toConvEnv b.bbox ++
          [(pstr "transform", pstr "skew(" ++ env.italicAngle b.font ++ pstr "deg, 0deg)"), (pstr "text-align", pstr "center"),
            (pstr "display", pstr "flex"), (pstr "flex-flow", pstr "row nowrap"), (pstr "justify-content", pstr "space-between")]))])
        (xmlName_dec (by decide)) (styled_ok [pstr "class"] rfl (by decide) (by decide) (css := ([(pstr "position", pstr "absolute"), (pstr "left", env.fmt b.bbox.x0), (pstr "bottom", env.fmt b.bbox.y0),
        (pstr "font-size", px env b.size), (pstr "font-family", env.fontName b.font), (pstr "font-weight", w), (pstr "color", col)] ++
      sizeCss env b.bbox ++
      [(pstr "transform", pstr "skew(" ++ env.italicAngle b.font ++ pstr "deg, 0deg)"), (pstr "text-align", pstr "center"),
        (pstr "display", pstr "flex"), (pstr "flex-flow", pstr "row nowrap"), (pstr "justify-content", pstr "space-between")]))
          (attrs := [(pstr "class", pstr "char-block")]) (by
            intro p hp; rw [List.mem_singleton.1 hp]; exact val_lit _ (by decide)) (by
            intro p hp
            rcases List.mem_append.1 hp with hp | hp
            · rcases List.mem_append.1 hp with hp | hp
              · simp only [List.mem_cons, List.not_mem_nil, or_false] at hp
                rcases hp with rfl | rfl | rfl | rfl | rfl | rfl | rfl <;> refine ⟨by dsimp only; exact val_lit _ (by decide), ?_⟩
                · exact val_lit _ (by decide)
                · exact val_number (henv.number _)
                · exact val_number (henv.number _)
                · exact val_px henv _
                · exact hf.name
                · exact hf.weight _ hw
                · exact val_hColor henv hpt (val_lit _ (by decide)) hc
              · exact sizeCss_ok henv _ p hp
            · simp only [List.mem_cons, List.not_mem_nil, or_false] at hp
              rcases hp with rfl | rfl | rfl | rfl | rfl <;> refine ⟨by dsimp only; exact val_lit _ (by decide), ?_⟩
              · exact val_append (val_append (val_lit _ (by decide)) hf.angle) (val_lit _ (by decide))
              · exact val_lit _ (by decide)
              · exact val_lit _ (by decide)
              · exact val_lit _ (by decide)
              · exact val_lit _ (by decide)))
        (by rw [styled, hStyle_css]; exact .refl _)
        (chars_hout henv (n + 1) b.chars (fun c hc => ⟨_, noMarkup_content (h c hc), rfl⟩)) (hout_nil n)
      rw [List.append_nil, List.append_nil] at this
      exact this

theorem colorCss_attr {env : HtmlEnv} {name : PyStr} {c : Color} {t : PyStr} (h : hColor env c [] = some t) : ColorAttr env name c (colorCss name t) := by
  have hc := hColor_some h
  have ne : ∀ a b : PyStr, ∀ x, a ++ x :: b ≠ [] := by intro a b x e; have := congrArg List.length e; simp at this
  have key : ∀ cs vs, c = ⟨some cs, vs⟩ → t ≠ [] → ColorAttr env name c (colorCss name t) := by
    rintro cs vs rfl ht
    rw [colorCss, if_neg ht]
    exact .present hc
  cases hc with
  | absent => rw [colorCss, if_pos rfl]; exact .absent
  | gray _ _ => exact key _ _ rfl (by rw [List.append_assoc]; intro e; cases e)
  | grayOther _ _ => exact key _ _ rfl (by intro e; exact ne _ [] 0x29 e)
  | rgb _ => exact key _ _ rfl (by intro e; exact ne _ [] 0x29 e)
  | cmyk _ => exact key _ _ rfl (by intro e; exact ne _ [] 0x29 e)
  | other _ _ _ => exact key _ _ rfl (by intro e; exact ne _ [] 0x29 e)

theorem colorCss_cases (name t : PyStr) : colorCss name t = [] ∨ colorCss name t = [(name, t)] := by
  unfold colorCss
  split
  · exact .inl rfl
  · exact .inr rfl

theorem val_svgData {d : PyStr} {l : List (Char × List PyStr)} (h : SvgData d l) : Val d := by
  have sp : Val (pstr " ") := val_lit _ (by decide)
  induction h with
  | nil => exact ⟨[], .nil⟩
  | close _ ih => exact val_append (val_lit _ (by decide)) ih
  | command hc _ h1 _ ih =>
    rename_i c ns t l _ _
    have hi : Val (List.intercalate (pstr " ") ns) := by
      clear ih
      induction ns with
      | nil => exact ⟨[], .nil⟩
      | cons n ns ih =>
        have hn := val_number (h1 n List.mem_cons_self)
        cases ns with
        | nil => rw [intercalate_one]; exact hn
        | cons m ns => rw [intercalate_cons2]; exact val_append (val_append hn sp) (ih (by simp) (fun n h => h1 n (List.mem_cons_of_mem _ h)))
    have hl : Val [c.toNat] := by
      simp only [List.mem_cons, List.not_mem_nil, or_false] at hc
      rcases hc with rfl | rfl | rfl <;> exact val_lit _ (by decide)
    exact val_append hl (val_append (val_append hi sp) ih)

theorem pathAttrs_ok {d fill stroke : PyStr} (hd : Val d) (hf : Val fill) (hs : Val stroke) :
    AttrsOk (styled ((pstr "d", d) :: (colorCss (pstr "fill") fill ++ colorCss (pstr "stroke") stroke))
      (colorCss (pstr "fill") fill ++ colorCss (pstr "stroke") stroke)) := by
  have css : ∀ p ∈ colorCss (pstr "fill") fill ++ colorCss (pstr "stroke") stroke, Val p.1 ∧ Val p.2 := by
    intro p hp
    rcases List.mem_append.1 hp with hp | hp
    · rcases colorCss_cases (pstr "fill") fill with e | e <;> rw [e] at hp
      · cases hp
      · rw [List.mem_singleton.1 hp]; exact ⟨val_lit (pstr "fill") (by decide), hf⟩
    · rcases colorCss_cases (pstr "stroke") stroke with e | e <;> rw [e] at hp
      · cases hp
      · rw [List.mem_singleton.1 hp]; exact ⟨val_lit (pstr "stroke") (by decide), hs⟩
  have vals : ∀ p ∈ (pstr "d", d) :: (colorCss (pstr "fill") fill ++ colorCss (pstr "stroke") stroke), Val p.2 := by
    intro p hp
    rcases List.mem_cons.1 hp with rfl | hp
    · exact hd
    · exact (css p hp).2
  rcases colorCss_cases (pstr "fill") fill with e | e <;> rcases colorCss_cases (pstr "stroke") stroke with e' | e' <;>
    rw [e, e'] at css vals ⊢
  · exact styled_ok [pstr "d"] rfl (by decide) (by decide) vals css
  · exact styled_ok [pstr "d", pstr "stroke"] rfl (by decide) (by decide) vals css
  · exact styled_ok [pstr "d", pstr "fill"] rfl (by decide) (by decide) vals css
  · exact styled_ok [pstr "d", pstr "fill", pstr "stroke"] rfl (by decide) (by decide) vals css

/-- The parts of the picture of a curve. -/
theorem hCurve_parts {env : HtmlEnv} {ph : ℚ} {c : Curve} {x : XNode} (hx : hCurve env ph c = some x) :
    ∃ dx dy view d stroke fill, svgScale c.bbox = some (dx, dy, view) ∧ svgPath env c.bbox dx dy c.paths = some d ∧
      hColor env c.stroke [] = some stroke ∧ hColor env c.fill [] = some fill ∧
      x = .elm (pstr "svg") (styled (svgAttrs env c.bbox view)
          [(pstr "border", pstr "1px solid black"), (pstr "position", pstr "absolute"), (pstr "left", px env c.bbox.x0),
            (pstr "bottom", px env (ph - c.bbox.y0)), (pstr "top", px env (ph - c.bbox.y1)), (pstr "right", px env c.bbox.x1),
            (pstr "width", px env c.bbox.width), (pstr "height", px env c.bbox.height)]) false false
        (.cons (.single (pstr "path") (styled ((pstr "d", d) :: (colorCss (pstr "fill") fill ++ colorCss (pstr "stroke") stroke))
          (colorCss (pstr "fill") fill ++ colorCss (pstr "stroke") stroke))) .nil) := by
  unfold hCurve at hx
  cases h1 : svgScale c.bbox with
  | none => rw [h1] at hx; cases hx
  | some r =>
    obtain ⟨dx, dy, view⟩ := r
    rw [h1] at hx
    cases h2 : svgPath env c.bbox dx dy c.paths with
    | none => simp only [Option.bind_eq_bind, Option.bind_some, h2] at hx; cases hx
    | some d =>
      cases h3 : hColor env c.stroke [] with
      | none => simp only [Option.bind_eq_bind, Option.bind_some, h2, h3] at hx; cases hx
      | some s =>
        cases h4 : hColor env c.fill [] with
        | none => simp only [Option.bind_eq_bind, Option.bind_some, h2, h3, h4] at hx; cases hx
        | some f =>
          simp only [Option.bind_eq_bind, Option.bind_some, Option.pure_def, h2, h3, h4, Option.some.injEq] at hx
          exact ⟨dx, dy, view, d, s, f, rfl, h2, rfl, rfl, hx.symm⟩

theorem svgAttrs_eq {env : HtmlEnv} {b : Bbox} {dx dy view : ℚ} (h : svgScale b = some (dx, dy, view)) :
    svgAttrs env b view = [(pstr "class", pstr "curve"), (pstr "z-index", pstr "2"),
      (pstr "viewBox", pstr "0 0 " ++ (if b.y0 < b.y1 then env.fmt (svgWidth b) else pstr "1") ++ pstr " 1"),
      (pstr "height", Spec.atLeast1 env.toConvEnv (b.y1 - b.y0)), (pstr "width", Spec.atLeast1 env.toConvEnv (b.x1 - b.x0))] := by
  unfold svgAttrs
  have h1 : (0 < b.height) = (b.y0 < b.y1) := by unfold Bbox.height; exact propext sub_pos
  rw [(svgScale_some h).2]
  have h2 : (if 0 < b.height then pstr "0 0 " ++ env.fmt (svgWidth b) ++ pstr " 1" else pstr "0 0 1 1") =
      pstr "0 0 " ++ (if b.y0 < b.y1 then env.fmt (svgWidth b) else pstr "1") ++ pstr " 1" := by
    by_cases hy : b.y0 < b.y1
    · rw [if_pos hy, if_pos (by rw [h1]; exact hy)]
    · rw [if_neg hy, if_neg (by rw [h1]; exact hy)]; rfl
  rw [h2]
  rfl

theorem val_atLeast1 {env : HtmlEnv} (henv : HtmlOk env) (q : ℚ) : Val (Spec.atLeast1 env.toConvEnv q) := by
  unfold Spec.atLeast1
  split
  · exact val_px henv q
  · exact val_lit _ (by decide)

theorem curve_hout {env : HtmlEnv} (henv : HtmlOk env) (n : Nat) (ph : ℚ) (c : Curve) (hp : ∀ p ∈ c.paths, p.method ≠ .closePath → p.points ≠ [])
    (hfl : Spec.HtmlPaint env c.fill) (hst : Spec.HtmlPaint env c.stroke)
    {x : XNode} (hx : hCurve env ph c = some x) : ∃ tags, CurveHtml env ph c tags ∧ HOut n (.cons x .nil) [] tags := by
  obtain ⟨dx, dy, view, d, stroke, fill, h1, h2, h3, h4, rfl⟩ := hCurve_parts hx
  obtain ⟨steps, h5, h6⟩ := svgPath_some henv.number h1 hp h2
  refine ⟨_, .mk (colorCss_attr h4) (colorCss_attr h3) h5 h6, ?_⟩
  have hpath := hout_single (n := n + 1) (xmlName_dec (n := pstr "path") (by decide))
    (pathAttrs_ok (val_svgData h5) (val_hColor henv hfl ⟨[], .nil⟩ h4) (val_hColor henv hst ⟨[], .nil⟩ h3)) (.refl _) (hout_nil (n + 1))
  rw [svgAttrs_eq h1]
  have := hout_elm (n := n) (nol := false) (xmlName_dec (n := pstr "svg") (by decide)) (attrs := styled [(pstr "class", pstr "curve"), (pstr "z-index", pstr "2"),
      (pstr "viewBox", pstr "0 0 " ++ (if c.bbox.y0 < c.bbox.y1 then env.fmt (svgWidth c.bbox) else pstr "1") ++ pstr " 1"),
      (pstr "height", Spec.atLeast1 env.toConvEnv (c.bbox.y1 - c.bbox.y0)), (pstr "width", Spec.atLeast1 env.toConvEnv (c.bbox.x1 - c.bbox.x0))]
      [(pstr "border", pstr "1px solid black"), (pstr "position", pstr "absolute"), (pstr "left", px env c.bbox.x0),
            (pstr "bottom", px env (ph - c.bbox.y0)), (pstr "top", px env (ph - c.bbox.y1)), (pstr "right", px env c.bbox.x1),
            (pstr "width", px env c.bbox.width), (pstr "height", px env c.bbox.height)])
    (styled_ok [pstr "class", pstr "z-index", pstr "viewBox", pstr "height", pstr "width"] rfl (by decide) (by decide) (by
      intro p hp
      simp only [List.mem_cons, List.not_mem_nil, or_false] at hp
      rcases hp with rfl | rfl | rfl | rfl | rfl
      · exact val_lit _ (by decide)
      · exact val_lit _ (by decide)
      · refine val_append (val_append (val_lit _ (by decide)) ?_) (val_lit _ (by decide))
        split
        · exact val_number (henv.number _)
        · exact val_lit _ (by decide)
      · exact val_atLeast1 henv _
      · exact val_atLeast1 henv _) (by
      intro p hp
      simp only [List.mem_cons, List.not_mem_nil, or_false] at hp
      rcases hp with rfl | rfl | rfl | rfl | rfl | rfl | rfl | rfl <;> refine ⟨by dsimp only; exact val_lit _ (by decide), ?_⟩
      · exact val_lit _ (by decide)
      · exact val_lit _ (by decide)
      all_goals exact val_px henv _))
    (List.Perm.cons _ (.cons _ (.cons _ (.swap _ _ _)))) hpath (hout_nil n)
  rw [List.append_nil, List.append_nil] at this
  refine cast ?_ this
  simp only [styled, hStyle_css]
  rfl

theorem blocks_hout {env : HtmlEnv} (henv : HtmlOk env) (n : Nat) (l : List CharBlock) (h : ∀ cb ∈ l, (∀ c ∈ cb.chars, NoMarkup c.1) ∧ Spec.HtmlFont env cb.font ∧ Spec.HtmlPaint env cb.color) {xs : List XNode}
    (hx : List.Forall₂ (fun a b => hCharBlock env a = some b) l xs) :
    ∃ ts, List.Forall₂ (BlockHtml env) l ts ∧ HOut n (XBody.ofList xs) (inked (l.flatMap CharBlock.text)) ts.flatten := by
  induction hx with
  | nil => exact ⟨[], .nil, hout_nil n⟩
  | cons h1 _ ih =>
    obtain ⟨tags, h2, h3⟩ := block_hout henv n _ (h _ List.mem_cons_self).1 (h _ List.mem_cons_self).2.1 (h _ List.mem_cons_self).2.2 h1
    obtain ⟨ts, h4, h5⟩ := ih (fun cb hc => h cb (List.mem_cons_of_mem _ hc))
    refine ⟨tags :: ts, .cons h2 h4, ?_⟩
    have := hout_append h3 h5
    rw [List.flatMap_cons, inked_append]
    exact this

theorem items_hout {env : HtmlEnv} {ph : ℚ} (n : Nat) (l : List Item)
    (h : ∀ i ∈ l, ∀ b, hItem env ph i = some b → ∃ tags, ItemHtml env ph i tags ∧ HOut n b (inked (textItem i)) tags) {b : XBody}
    (hb : hItems env ph l = some b) : ∃ ts, List.Forall₂ (ItemHtml env ph) l ts ∧ HOut n b (inked (textItems l)) ts.flatten := by
  induction l generalizing b with
  | nil =>
    rw [hItems] at hb
    cases hb
    exact ⟨[], .nil, by rw [textItems]; exact hout_nil n⟩
  | cons i l ih =>
    rw [hItems] at hb
    cases h1 : hItem env ph i with
    | none => rw [h1] at hb; cases hb
    | some a =>
      rw [h1] at hb
      cases h2 : hItems env ph l with
      | none => rw [h2] at hb; cases hb
      | some a' =>
        rw [h2] at hb
        simp only [Option.some.injEq] at hb
        subst hb
        obtain ⟨tags, h3, h4⟩ := h i List.mem_cons_self a h1
        obtain ⟨ts, h5, h6⟩ := ih (fun i hi => h i (List.mem_cons_of_mem _ hi)) h2
        exact ⟨tags :: ts, .cons h3 h5, by rw [textItems, inked_append]; exact hout_append h4 h6⟩

theorem item_hout {env : HtmlEnv} (henv : HtmlOk env) (ph : ℚ) (i : Item) (hi : HtmlItem env i) (n : Nat) (b : XBody) (hb : hItem env ph i = some b) :
    ∃ tags, ItemHtml env ph i tags ∧ HOut n b (inked (textItem i)) tags := by
  match i, hi with
  | .none, .none =>
    have e : textItem .none = [] := by simp [textItem]
    rw [hItem] at hb; cases hb
    exact ⟨[], .none, by rw [e]; exact hout_nil n⟩
  | .curve c, .curve hp hfl hst =>
    have e : textItem (.curve c) = [] := by simp [textItem]
    rw [hItem, Option.map_eq_some_iff] at hb
    obtain ⟨x, hx, rfl⟩ := hb
    obtain ⟨tags, h1, h2⟩ := curve_hout henv n ph c hp hfl hst hx
    exact ⟨tags, .curve h1, by rw [e]; exact h2⟩
  | .image d data bb, .image him =>
    have e : textItem (.image d data bb) = [] := by simp [textItem]
    rw [hItem] at hb; cases hb
    refine ⟨_, .image, ?_⟩
    rw [e]
    refine hout_single (xmlName_dec (by decide)) (attrsOk_of _ [pstr "src", pstr "background", pstr "width", pstr "height"] rfl (by decide) (by decide) ?_)
      (.refl _) (hout_nil n)
    intro p hp
    simp only [List.mem_cons, List.not_mem_nil, or_false] at hp
    rcases hp with rfl | rfl | rfl | rfl
    · exact him
    · exact val_lit _ (by decide)
    · exact val_px henv _
    · exact val_px henv _
  | .text tb, .text ht =>
    have e : textItem (.text tb) = tb.blocks.flatMap CharBlock.text ++ [] := by rw [textItem, List.append_nil]; rfl
    rw [hItem, Option.map_eq_some_iff] at hb
    obtain ⟨xs, hx, rfl⟩ := hb
    obtain ⟨ts, h1, h2⟩ := blocks_hout henv (n + 1) tb.blocks ht (mapM_some hx)
    refine ⟨_, .text h1, ?_⟩
    have := hout_elm (n := n) (nol := false) (xmlName_dec (n := pstr "span") (by decide)) (attrsOk_of [(pstr "class", pstr "text-block")] [pstr "class"] rfl (by decide) (by decide)
      (by intro p hp; rw [List.mem_singleton.1 hp]; exact val_lit _ (by decide))) (.refl _) h2 (hout_nil n)
    rw [e, inked_append]
    rw [List.append_nil (_ :: _)] at this
    exact this
  | .xobj s bb r m children, .xobj hch =>
    have e : textItem (.xobj s bb r m children) = textItems children ++ [] := by rw [textItem, List.append_nil]
    rw [hItem, Option.map_eq_some_iff] at hb
    obtain ⟨body, hx, rfl⟩ := hb
    obtain ⟨ts, h1, h2⟩ := items_hout (n + 1) children (fun i hi b hb => item_hout henv ph i (hch i hi) (n + 1) b hb) hx
    refine ⟨_, .xobj h1, ?_⟩
    have := hout_elm (n := n) (nol := false) (xmlName_dec (n := pstr "div") (by decide)) (styled_ok (attrs := [(pstr "class", pstr "xobject")]) (css := xobjectCss env bb)
      [pstr "class"] rfl (by decide) (by decide)
      (by intro p hp; rw [List.mem_singleton.1 hp]; exact val_lit _ (by decide)) (by
        intro p hp
        simp only [xobjectCss, List.mem_cons, List.not_mem_nil, or_false] at hp
        rcases hp with rfl | rfl | rfl | rfl | rfl | rfl <;> exact ⟨by dsimp only; exact val_lit _ (by decide), val_px henv _⟩))
      (.refl _) h2 (hout_nil n)
    rw [e, inked_append]
    rw [List.append_nil (_ :: _)] at this
    rw [styled, hStyle_css] at *
    exact this
termination_by i

theorem pages_hout {env : HtmlEnv} (henv : HtmlOk env) (n : Nat) (pages : List LtPage) (hp : ∀ p ∈ pages, ∀ i ∈ p.items, HtmlItem env i) {xs : List XNode}
    (hx : List.Forall₂ (fun a b => hPage env a = some b) pages xs) :
    ∃ ts, List.Forall₂ (PageHtml env) pages ts ∧ HOut n (XBody.ofList xs) (inked (pages.flatMap fun p => textItems p.items)) ts.flatten := by
  induction hx with
  | nil => exact ⟨[], .nil, hout_nil n⟩
  | cons h1 _ ih =>
    rename_i p x l xs _
    obtain ⟨us, h3, h4⟩ := ih (fun p h => hp p (List.mem_cons_of_mem _ h))
    rw [hPage, Option.map_eq_some_iff] at h1
    obtain ⟨body, h1, rfl⟩ := h1
    obtain ⟨ts, h5, h6⟩ := items_hout (n + 1) p.items (fun i hi b hb => item_hout henv _ i (hp p List.mem_cons_self i hi) (n + 1) b hb) h1
    refine ⟨_ :: us, .cons ⟨ts, h5, rfl⟩ h3, ?_⟩
    rw [List.flatMap_cons, inked_append]
    refine hout_elm (xmlName_dec (n := pstr "div") (by decide)) (styled_ok
      [pstr "class", pstr "id"] rfl (by decide) (by decide) ?_ ?_) ?_ h6 h4
    · intro q hq
      simp only [List.mem_cons, List.not_mem_nil, or_false] at hq
      rcases hq with rfl | rfl
      · exact val_lit _ (by decide)
      · exact val_append (val_lit _ (by decide)) (val_numText _)
    · intro q hq
      simp only [List.mem_cons, List.not_mem_nil, or_false] at hq
      rcases hq with rfl | rfl <;> exact ⟨by dsimp only; exact val_lit _ (by decide), val_px henv _⟩
    · rw [styled, hStyle_css]; exact .refl _

/-- **C86 (partial).** If nothing is refused, the HTML file is well-formed and can be read in one way only. It has a start tag for the document,
its head and body, and for every page, item, char-block and character, in the order of the items, with places, sizes, fonts, colours and
paths as attributes. Its characters that are not white space are those of the style sheet and then those that the pages show. Missing: texts
with markup, which are written as they are. -/
theorem html_document_partial (env : HtmlEnv) (henv : HtmlOk env) (codec : PyStr) (hc : ∃ v, XmlValue codec v) (pages : List LtPage)
    (hp : ∀ p ∈ pages, ∀ i ∈ p.items, HtmlItem env i ∧ ¬ Refused env i) (ts : List PyStr) (hts : List.Forall₂ PageShows pages ts) :
    ∃ file ev, htmlFile env codec pages = some file ∧ XmlContent file ev ∧ (∀ ev', XmlContent file ev' → ev' = ev) ∧
      visible ev = inked Spec.sheet ++ inked ts.flatten ∧
      ∃ tags, List.Forall₂ (PageHtml env) pages tags ∧ List.Forall₂ ReadsTag (Spec.headTags codec ++ tags.flatten) (starts ev) := by
  cases hf : htmlFile env codec pages with
  | none =>
    obtain ⟨p, h1, i, h2, h3⟩ := (html_refused env codec pages).1 hf
    exact absurd h3 (hp p h1 i h2).2
  | some file =>
    unfold htmlFile at hf
    rw [Option.map_eq_some_iff] at hf
    obtain ⟨xs, hx, rfl⟩ := hf
    obtain ⟨tags, ht, hb⟩ := pages_hout henv 2 pages (fun p h i hi => (hp p h i hi).1) (mapM_some hx)
    have hbody := hout_elm (n := 1) (nol := false) (xmlName_dec (n := pstr "body") (by decide)) (attrs := []) ⟨by simp, by simp⟩ (.refl _) hb (hout_nil 1)
    have hmeta : AttrsOk ([(pstr "http-equiv", pstr "Content-Type"), (pstr "content", pstr "text/html")] ++ if codec = [] then [] else [(pstr "charset", codec)]) := by
      by_cases h0 : codec = []
      · rw [if_pos h0]
        refine attrsOk_of _ [pstr "http-equiv", pstr "content"] rfl (by decide) (by decide) ?_
        intro p hp
        simp only [List.append_nil, List.mem_cons, List.not_mem_nil, or_false] at hp
        rcases hp with rfl | rfl <;> exact val_lit _ (by decide)
      · rw [if_neg h0]
        refine attrsOk_of _ [pstr "http-equiv", pstr "content", pstr "charset"] rfl (by decide) (by decide) ?_
        intro p hp
        simp only [List.cons_append, List.nil_append, List.mem_cons, List.not_mem_nil, or_false] at hp
        rcases hp with rfl | rfl | rfl
        · exact val_lit _ (by decide)
        · exact val_lit _ (by decide)
        · exact hc
    have hrule : NoMarkup hRule := by unfold NoMarkup; decide
    have hstyle := hout_elm (n := 2) (nol := false) (xmlName_dec (n := pstr "style") (by decide)) (attrs := []) ⟨by simp, by simp⟩ (.refl _)
      (hout_text (n := 3) (noMarkup_content hrule)) (hout_nil 2)
    have hhead := hout_elm (n := 1) (nol := false) (xmlName_dec (n := pstr "head") (by decide)) (attrs := []) ⟨by simp, by simp⟩ (.refl _)
      (hout_single (xmlName_dec (n := pstr "meta") (by decide)) hmeta (.refl _) hstyle) hbody
    have hall := hout_elm (n := 0) (nol := true) (xmlName_dec (n := pstr "html") (by decide)) (attrs := []) ⟨by simp, by simp⟩ (.refl _) hhead (hout_nil 0)
    obtain ⟨ev, h1, h2, h3⟩ := hall
    have w := xml_writer_partial _ _ _ h1
    refine ⟨_, ev, rfl, w, fun ev' h' => xml_unique _ _ _ h' w, ?_, tags, ht, ?_⟩
    · rw [h2]
      simp only [List.append_nil]
      congr 1
      rw [flatMap_flatten]
      congr 2
      exact (forall2_map_eq (fun p _ t h => (pageShows_iff p t).1 h) hts).symm
    · simpa [Spec.headTags] using h3

/-! ### The picture of a curve -/

/-- A point in the box of a curve is in the view box of the picture. -/
theorem svg_view (b : Bbox) (hb : b.x0 ≤ b.x1 ∧ b.y0 ≤ b.y1) (q : ℚ × ℚ) (hq : b.x0 ≤ q.1 ∧ q.1 ≤ b.x1 ∧ b.y0 ≤ q.2 ∧ q.2 ≤ b.y1) :
    0 ≤ (svgPosition b q).1 ∧ (svgPosition b q).1 ≤ svgWidth b ∧ 0 ≤ (svgPosition b q).2 ∧ (svgPosition b q).2 ≤ 1 := by
  obtain ⟨h1, h2, h3, h4⟩ := hq
  unfold svgPosition svgWidth
  by_cases hy : b.y0 < b.y1
  · rw [if_pos hy, if_pos hy]
    have hh : 0 < b.y1 - b.y0 := by linarith
    have a1 : 0 ≤ (q.1 - b.x0) / (b.y1 - b.y0) := div_nonneg (by linarith) hh.le
    have a2 : (q.1 - b.x0) / (b.y1 - b.y0) ≤ (b.x1 - b.x0) / (b.y1 - b.y0) := by
      apply div_le_div_of_nonneg_right _ hh.le; linarith
    refine ⟨?_, ?_, div_nonneg (by linarith) hh.le, (div_le_one hh).2 (by linarith)⟩
    · dsimp only
      split
      · exact mul_nonneg (mul_nonneg (by norm_num) (by linarith)) a1
      · exact a1
    · dsimp only
      split
      · next hw =>
        refine le_trans ?_ a2
        have : 100 * (b.x1 - b.x0) ≤ 1 := by linarith
        calc 100 * (b.x1 - b.x0) * ((q.1 - b.x0) / (b.y1 - b.y0)) ≤ 1 * ((q.1 - b.x0) / (b.y1 - b.y0)) := mul_le_mul_of_nonneg_right this a1
          _ = _ := one_mul _
      · exact a2
  · rw [if_neg hy, if_neg hy]
    have hx : 0 ≤ b.x1 - b.x0 := by linarith [hb.1]
    refine ⟨div_nonneg (by linarith) hx, div_le_one_of_le₀ (by linarith) hx, ?_, ?_⟩ <;> dsimp only <;> linarith

/-- **C87 (partial).** The conversion of a curve that is not refused gives a picture with the size of its box in pixels, at least 1, and one
path. The data of the path is read in one way: one step for every step of the curve, in order, except those made by the operators `v` and
`y`. If the curve has both a height and at least the width 1/100, the picture is similar to the curve, upside down as SVG wants it: the corner
at the left and at the top is the origin, and all distances are divided by the height. Points in the box of the curve are in the view box. -/
theorem svg_picture_partial (env : HtmlEnv) (henv : HtmlOk env) (ph : ℚ) (c : Curve) (hc : ¬ CurveRefused c)
    (hp : ∀ p ∈ c.paths, p.method ≠ .closePath → p.points ≠ []) :
    (∃ attrs d attrs', hCurve env ph c = some (.elm (pstr "svg") attrs false false (.cons (.single (pstr "path") ((pstr "d", d) :: attrs')) .nil)) ∧
      (pstr "viewBox", pstr "0 0 " ++ (if c.bbox.y0 < c.bbox.y1 then env.fmt (svgWidth c.bbox) else pstr "1") ++ pstr " 1") ∈ attrs ∧
      ∃ steps, SvgData d steps ∧ (∀ steps', SvgData d steps' → steps' = steps) ∧ SvgSteps env.toConvEnv c.bbox c.paths steps) ∧
    (c.bbox.x0 ≤ c.bbox.x1 → c.bbox.y0 < c.bbox.y1 → 1 / 100 ≤ c.bbox.x1 - c.bbox.x0 →
      svgPosition c.bbox (c.bbox.x0, c.bbox.y1) = (0, 0) ∧
      ∀ p q : ℚ × ℚ, (svgPosition c.bbox q).1 - (svgPosition c.bbox p).1 = (q.1 - p.1) / (c.bbox.y1 - c.bbox.y0) ∧
        (svgPosition c.bbox q).2 - (svgPosition c.bbox p).2 = -((q.2 - p.2) / (c.bbox.y1 - c.bbox.y0))) ∧
    (c.bbox.x0 ≤ c.bbox.x1 → c.bbox.y0 ≤ c.bbox.y1 → ∀ q : ℚ × ℚ, c.bbox.x0 ≤ q.1 → q.1 ≤ c.bbox.x1 → c.bbox.y0 ≤ q.2 → q.2 ≤ c.bbox.y1 →
      0 ≤ (svgPosition c.bbox q).1 ∧ (svgPosition c.bbox q).1 ≤ svgWidth c.bbox ∧ 0 ≤ (svgPosition c.bbox q).2 ∧ (svgPosition c.bbox q).2 ≤ 1) := by
  refine ⟨?_, ?_, fun hx hy q h1 h2 h3 h4 => svg_view _ ⟨hx, hy⟩ q ⟨h1, h2, h3, h4⟩⟩
  · cases hx : hCurve env ph c with
    | none => exact absurd (hCurve_none.1 hx) hc
    | some x =>
      obtain ⟨dx, dy, view, d, stroke, fill, h1, h2, h3, h4, rfl⟩ := hCurve_parts hx
      obtain ⟨steps, h5, h6⟩ := svgPath_some henv.number h1 hp h2
      refine ⟨_, d, _, rfl, ?_, steps, h5, fun s' h' => svg_data_unique _ _ _ h' h5, h6⟩
      rw [svgAttrs_eq h1]
      simp [styled]
  · intro _ hy hw
    have hne : c.bbox.y1 - c.bbox.y0 ≠ 0 := by linarith
    unfold svgPosition
    rw [if_pos hy, if_neg (not_lt.2 hw)]
    refine ⟨by simp, fun p q => ?_⟩
    simp only [if_pos hy, if_neg (not_lt.2 hw)]
    constructor <;> (field_simp; ring)

/-! ### Counterexamples -/

/-- A painted segment without length makes the conversion fail. -/
theorem html_dot_counterexample (R : Resolver) (env : HtmlEnv) (s : St) (p : ℚ × ℚ) (n : String) (eo cl : Bool) (hop : (n, eo, cl) ∈ painters)
    (hs : Segment (drawn s cl) p p) :
    ∃ i, execs R [operator n] s = .ok { s with curves := [], done := s.done ++ [i] } ∧
      ∀ codec num w h, htmlFile env codec [⟨num, w, h, [i]⟩] = none := by
  obtain ⟨k, b, h1, h2, _⟩ := paint_segment R s p p n eo cl hop hs
  refine ⟨_, h1, fun codec num w h => ?_⟩
  rw [html_refused]
  refine ⟨_, List.mem_singleton.2 rfl, _, List.mem_singleton.2 rfl, .curve ?_⟩
  obtain ⟨h3, h4⟩ := h2
  have h5 := h3 (applyPt s.tmatrix p) (by simp)
  have h6 := h4 (applyPt s.tmatrix p).1 (applyPt s.tmatrix p).2 (applyPt s.tmatrix p).1 (applyPt s.tmatrix p).2 (by
    intro q hq; simp at hq; rw [hq]; simp [Spec.Box])
  simp only [Spec.Box, Set.mem_setOf_eq] at h5
  obtain ⟨a1, a2, a3, a4⟩ := h5
  obtain ⟨b1, b2, b3, b4⟩ := h6
  exact .dot (by dsimp only; linarith) (by dsimp only; linarith)

/-- Setting a colour of a space with one component without operands is not an error, but makes the conversion fail when something is painted. -/
theorem html_color_counterexample (R : Resolver) (env : HtmlEnv) (s : St) (cs : ColorSpace) (hcs : cs.ncomponents = .int 1) (ha : s.args = [])
    (hn : s.graphics.ncolspace = some cs) :
    ∃ s', execs R [operator "sc"] s = .ok s' ∧ EmptyColor s'.graphics.ncolor ∧
      ∀ k lw ps b st eo codec num w h, htmlFile env codec [⟨num, w, h, [.curve ⟨k, lw, ps, b, st, s'.graphics.ncolor, eo⟩]⟩] = none := by
  have e : exec R s (operator "sc") = opCustom GState.ncolspace setFill [] s := rfl
  have hp : popArgs 1 ([] : List Obj) = ([], []) := by decide
  refine ⟨{ s with graphics := { s.graphics with ncolor := ⟨some cs, []⟩ } }, ?_, ⟨cs, rfl, by rw [hcs]; simp [Obj.num?]⟩, ?_⟩
  · simp only [execs, e, opCustom, hn, hcs, ha, setFill]
    simp [popArgs]
  · intro k lw ps b st eo codec num w h
    rw [html_refused]
    exact ⟨_, List.mem_singleton.2 rfl, _, List.mem_singleton.2 rfl, .curve (.fill ⟨cs, rfl, by rw [hcs]; simp [Obj.num?]⟩)⟩

/-- The picture of a line that is drawn with a translation is outside of its view box: the box is transformed and the points are not. -/
theorem svg_matrix_counterexample : ∃ c, makeCurve ⟨1, 0, 0, 1, 10, 0⟩ {} false [⟨.moveTo, [(some 0, some 0)]⟩, ⟨.lineTo, [(some 1, some 1)]⟩] = .ok (.curve c) ∧
    svgWidth c.bbox = 1 ∧ svgPosition c.bbox (0, 0) = (-10, 1) ∧ svgPosition c.bbox (1, 1) = (-9, 0) := by
  refine ⟨_, rfl, ?_, ?_, ?_⟩ <;> decide +kernel

/-- An environment for examples. -/
def sampleHtml : HtmlEnv where
  toConvEnv := sampleEnv (pstr "FontName")
  fontName := fun _ => pstr "Arial"
  fontWeight := fun _ => some (pstr "bold")
  italicAngle := fun _ => pstr "0"
  spaceName := fun _ => pstr "DeviceGray"
  valueStr := fun _ => pstr "0"

/-- The curves made by the operator `v` are left out: the curve does not depend on the control point, and the same file is written for a path
with one point only. -/
theorem html_operator_v_counterexample (env : HtmlEnv) (ph : ℚ) (c : Curve) (p q : Option ℚ × Option ℚ) :
    hCurve env ph { c with paths := [⟨.moveTo, [p]⟩, ⟨.curveNextTo, [q, q]⟩] } = hCurve env ph { c with paths := [⟨.moveTo, [p]⟩] } := by
  unfold hCurve
  dsimp only
  have key : ∀ dx dy, svgPath env c.bbox dx dy [⟨.moveTo, [p]⟩, ⟨.curveNextTo, [q, q]⟩] = svgPath env c.bbox dx dy [⟨.moveTo, [p]⟩] := by
    intro dx dy
    have h : svgStep env c.bbox dx dy ⟨.curveNextTo, [q, q]⟩ = some [] := rfl
    unfold svgPath
    rw [List.mapM_cons, List.mapM_cons, List.mapM_cons, List.mapM_nil, h]
    cases svgStep env c.bbox dx dy ⟨.moveTo, [p]⟩ <;> simp
  simp only [key]

/-- A page with one text block, one char-block and characters with the given texts. -/
def htmlPage (texts : List PyStr) : LtPage :=
  ⟨1, 0, 0, [.text ⟨some ⟨0, 0, 0, 0⟩, [⟨texts.map fun t => (t, ⟨0, 0, 0, 0⟩, 0), ⟨0, 0, 0, 0⟩, 0, sampleFont, .int 0, ⟨none, []⟩⟩]⟩]⟩

/-- Texts are written without escape: the text of a character can be markup. A page with this one character makes the same file as a page with
the two characters `a` and `b`. -/
theorem html_markup_counterexample :
    htmlFile sampleHtml (pstr "utf-8") [htmlPage [pstr ("a\n     </span>\n     <span class=\"char\" style=\"width: 0px;min-width: 0px;max-width: 0px;" ++
      "height: 0px;min-height: 0px;max-height: 0px\">\n      b")]] = htmlFile sampleHtml (pstr "utf-8") [htmlPage [pstr "a", pstr "b"]] ∧
    (htmlFile sampleHtml (pstr "utf-8") [htmlPage [pstr "a", pstr "b"]]).isSome ∧
    textFile [htmlPage [pstr "a", pstr "b"]] = pstr "========== [ page 1 ] ==========\nab\n" := by
  refine ⟨?_, ?_, ?_⟩ <;> decide +kernel

/-! ### Examples -/

theorem sampleHtml_ok : HtmlOk sampleHtml :=
  ⟨fun _ => show SvgNumber (pstr "0") from ⟨by decide, by decide⟩⟩

theorem sampleHtml_font (f : Font) : Spec.HtmlFont sampleHtml f :=
  ⟨val_lit (pstr "Arial") (by decide), fun w h => by cases h; exact val_lit (pstr "bold") (by decide), val_lit (pstr "0") (by decide)⟩

theorem sampleHtml_paint (c : Color) : Spec.HtmlPaint sampleHtml c :=
  fun _ _ => ⟨val_lit (pstr "DeviceGray") (by decide), fun _ _ => val_lit (pstr "0") (by decide)⟩

/-- A curve with all kinds of steps. -/
def htmlCurve : Curve :=
  ⟨.curve, .int 1, [⟨.moveTo, [(some 0, some 0)]⟩, ⟨.lineTo, [(some 4, some 2)]⟩, ⟨.curveBothTo, [(some 1, some 1), (some 2, some 2), (some 3, some 1)]⟩,
    ⟨.curveNextTo, [(some 1, some 1), (some 2, some 2)]⟩, ⟨.closePath, []⟩], ⟨0, 0, 4, 2⟩, ⟨some ⟨asc "DeviceRGB", .int 3⟩, [.int 1, .int 2, .int 3]⟩,
    ⟨some ⟨asc "DeviceGray", .int 1⟩, [.real 5 1]⟩, false⟩

theorem htmlCurve_ok : ¬ CurveRefused htmlCurve := by
  rw [← hCurve_none (env := sampleHtml) (ph := 0)]
  exact Option.isSome_iff_ne_none.1 (by decide +kernel)

theorem htmlCurve_points : ∀ p ∈ htmlCurve.paths, p.method ≠ .closePath → p.points ≠ [] := by decide

example : ∃ steps, SvgSteps sampleHtml.toConvEnv htmlCurve.bbox htmlCurve.paths steps :=
  let ⟨⟨_, _, _, _, _, s, _, _, h⟩, _⟩ := svg_picture_partial sampleHtml sampleHtml_ok 100 htmlCurve htmlCurve_ok htmlCurve_points
  ⟨s, h⟩

example : svgPosition htmlCurve.bbox (4, 0) = (2, 1) ∧ svgPosition htmlCurve.bbox (0, 2) = (0, 0) ∧ svgWidth htmlCurve.bbox = 2 := by decide +kernel

example : ∃ file ev, htmlFile sampleHtml (pstr "utf-8") [htmlPage [pstr "Hello ", pstr "World"], ⟨2, 3, 4, [.xobj .null ⟨0, 0, 1, 1⟩ .null Mat.identity [.curve htmlCurve, .none]]⟩] =
    some file ∧ XmlContent file ev ∧ visible ev = inked Spec.sheet ++ pstr "HelloWorld" := by
  obtain ⟨file, ev, h1, h2, _, h4, _⟩ := html_document_partial sampleHtml sampleHtml_ok (pstr "utf-8") (val_lit _ (by decide))
    [htmlPage [pstr "Hello ", pstr "World"], ⟨2, 3, 4, [.xobj .null ⟨0, 0, 1, 1⟩ .null Mat.identity [.curve htmlCurve, .none]]⟩] (by
      intro p hp i hi
      rcases List.mem_cons.1 hp with rfl | hp
      · rw [List.mem_singleton.1 hi]
        refine ⟨.text ?_, ?_⟩
        · intro cb hcb
          rw [List.mem_singleton.1 hcb]
          refine ⟨?_, sampleHtml_font _, sampleHtml_paint _⟩
          intro c hc
          simp only [List.map_cons, List.map_nil, List.mem_cons, List.not_mem_nil, or_false] at hc
          rcases hc with rfl | rfl <;> unfold NoMarkup <;> decide
        · rw [← hItem_none sampleHtml 0]; exact Option.isSome_iff_ne_none.1 (by decide +kernel)
      · rw [List.mem_singleton.1 hp] at hi
        rw [List.mem_singleton.1 hi]
        refine ⟨.xobj ?_, ?_⟩
        · intro i hi
          simp only [List.mem_cons, List.not_mem_nil, or_false] at hi
          rcases hi with rfl | rfl
          · exact .curve htmlCurve_points (sampleHtml_paint _) (sampleHtml_paint _)
          · exact .none
        · rw [← hItem_none sampleHtml 0]; exact Option.isSome_iff_ne_none.1 (by decide +kernel))
    [pstr "Hello World", []] (.cons ((pageShows_iff _ _).2 (by decide +kernel)) (.cons ((pageShows_iff _ _).2 (by decide +kernel)) .nil))
  refine ⟨file, ev, h1, h2, ?_⟩
  rw [h4]
  congr 1

end Pdf

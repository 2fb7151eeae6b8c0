import Verif.Props.Fonts
import Verif.Spec.FontExtent
/-! The name and the extents of fonts (C117). -/

namespace Pdf
open Spec (FontKind fontKind Entry DescriptorOf NumberAt FontBox FontName ExtentsOf Extents distanceOr)

/-- How the attributes of a font come from its descriptor. -/
theorem fontCore_attributes {R : Resolver} {d : List (Key × Obj)} {default : Option Obj} {core : FontCore} (h : fontCore R d default = .ok core) :
    R.resolve1 (getOr d "FontName" (.name (asc "unknown"))) = .ok core.name ∧ R.numValue (getOr d "Ascent" (.int 0)) = .ok core.ascent ∧
      R.numValue (getOr d "Descent" (.int 0)) = .ok core.descent ∧
      R.listValue (getOr d "FontBBox" (.arr [.int 0, .int 0, .int 0, .int 0])) = .ok core.bbox ∧ core.hscale = 1 / 1000 ∧ core.vscale = 1 / 1000 := by
  simp only [fontCore, bind, Except.bind] at h
  split at h
  · cases h
  · rename_i hn
    split at h
    · cases h
    · split at h
      · cases h
      · rename_i ha
        split at h
        · cases h
        · rename_i hd
          split at h
          · cases h
          · cases default with
            | none =>
              dsimp only at h
              split at h
              · cases h
              · split at h
                · cases h
                · split at h
                  · cases h
                  · rename_i hb
                    cases h; exact ⟨hn, ha, hd, hb, rfl, rfl⟩
            | some o =>
              dsimp only at h
              by_cases ho : o.truthy
              · simp only [if_pos ho] at h
                split at h
                · cases h
                · split at h
                  · cases h
                  · rename_i hb
                    cases h; exact ⟨hn, ha, hd, hb, rfl, rfl⟩
              · simp only [if_neg ho] at h
                split at h
                · cases h
                · split at h
                  · cases h
                  · split at h
                    · cases h
                    · rename_i hb
                      cases h; exact ⟨hn, ha, hd, hb, rfl, rfl⟩

theorem number_num {o : Obj} {q : ℚ} (h : o.num? = some q) : o.num = .ok q := by rw [Obj.num, h]

/-- The box of a descriptor. -/
theorem fontBox_of {R : Resolver} (hR : R.Direct) {d : List (Key × Obj)} {b : List Obj} {x0 y0 x1 y1 : ℚ} (h : FontBox R d x0 y0 x1 y1)
    (hb : R.listValue (getOr d "FontBBox" (.arr [.int 0, .int 0, .int 0, .int 0])) = .ok b) :
    ∃ a b' c e : Obj, b = [a, b', c, e] ∧ a.num? = some x0 ∧ b'.num? = some y0 ∧ c.num? = some x1 ∧ e.num? = some y1 := by
  cases h with
  | absent h =>
    cases h with
    | absent h =>
      rw [getOr, h, Option.getD_none, Resolver.listValue, hR _ (by simp)] at hb
      cases hb
      exact ⟨_, _, _, _, rfl, rfl, rfl, rfl, rfl⟩
  | given h ha hb' hc he =>
    cases h with
    | given ho hv =>
      rw [getOr, ho, Option.getD_some, Resolver.listValue, hv] at hb
      cases hb
      exact ⟨_, _, _, _, rfl, ha, hb', hc, he⟩

theorem fontName_of {R : Resolver} (hR : R.Direct) {d : List (Key × Obj)} {n v : Obj} (h : FontName R d n)
    (hn : R.resolve1 (getOr d "FontName" (.name (asc "unknown"))) = .ok v) : v = n := by
  cases h with
  | absent h =>
    cases h with
    | absent h => rw [getOr, h, Option.getD_none, hR _ (by simp)] at hn; cases hn; rfl
  | given h =>
    cases h with
    | given ho hv => rw [getOr, ho, Option.getD_some, hv] at hn; cases hn; rfl

/-- The sizes of a font with these attributes. -/
theorem core_extents {f : FontCore} {a b c e : Obj} {x0 y0 x1 y1 asc desc miss : ℚ} (hb : f.bbox = [a, b, c, e]) (n0 : a.num? = some x0)
    (n1 : b.num? = some y0) (n2 : c.num? = some x1) (n3 : e.num? = some y1) (ha : f.ascent.num = .ok asc) (hd : f.descent.num = .ok desc) :
    f.getDescent = .ok (desc * f.vscale) ∧ f.height = .ok (distanceOr y0 y1 (asc - desc) * f.vscale) ∧
      (f.defaultWidth.num = .ok miss → f.width = .ok (distanceOr x0 x1 (-miss) * f.hscale)) := by
  refine ⟨?_, ?_, fun hm => ?_⟩
  · rw [FontCore.getDescent, hd]; rfl
  · rw [FontCore.height, hb, bboxDiff]
    simp only [List.getElem?_cons_succ, List.getElem?_cons_zero, number_num n1, number_num n3, bind, Except.bind, distanceOr]
    by_cases h : y0 = y1
    · rw [if_pos (by rw [h, sub_self]), if_pos h, ha, hd]
    · rw [if_neg (fun h' => h (sub_eq_zero.1 h').symm), if_neg h]
  · rw [FontCore.width, hb, bboxDiff]
    simp only [List.getElem?_cons_succ, List.getElem?_cons_zero, number_num n0, number_num n2, bind, Except.bind, distanceOr]
    by_cases h : x0 = x1
    · rw [if_pos (by rw [h, sub_self]), if_pos h, hm]
    · rw [if_neg (fun h' => h (sub_eq_zero.1 h').symm), if_neg h]

/-- The sizes that a descriptor gives. -/
theorem descriptor_extents {R : Resolver} (hR : R.Direct) {d : List (Key × Obj)} {default : Option Obj} {core : FontCore}
    (h : fontCore R d default = .ok core) {miss : ℚ} (hm : core.defaultWidth.num = .ok miss) {x : Extents} (hx : ExtentsOf R d miss x) :
    core.getDescent = .ok x.descent ∧ core.height = .ok x.height ∧ core.width = .ok x.width := by
  obtain ⟨-, p2, p3, p4, p5, p6⟩ := fontCore_attributes h
  cases hx with
  | mk ha hd hb =>
    obtain ⟨a, b, c, e, q0, q1, q2, q3, q4⟩ := fontBox_of hR hb p4
    obtain ⟨oa, ra, na⟩ := numberAt_value (n := 0) hR (by simpa using ha)
    obtain ⟨od, rd, nd⟩ := numberAt_value (n := 0) hR (by simpa using hd)
    rw [p2] at ra
    rw [p3] at rd
    cases ra
    cases rd
    have := core_extents (miss := miss) q0 q1 q2 q3 q4 na nd
    rw [p5, p6] at this
    refine ⟨?_, ?_, ?_⟩
    · rw [this.1]; congr 1; ring
    · rw [this.2.1]; congr 1; ring
    · rw [this.2.2 hm]; congr 1; ring

/-- **C117, Type 1 and TrueType fonts**: the name is that of the descriptor, and so are descent, height and width. -/
theorem simple_font_extents {E : FontEnv} (hR : E.R.Direct) (hun : E.metrics (pstr "unknown") = none)
    {fuel : Nat} {spec : List (Key × Obj)} {f : Font} (hf : buildFont E fuel spec = .ok f) (hk : fontKind spec = .type1)
    {d : List (Key × Obj)} {w : Option (List (PyStr × Obj))} (hd : DescriptorOf E.R E.metrics spec d w) {q : ℚ}
    (hq : NumberAt E.R d "MissingWidth" 0 q) {name : Obj} (hn : FontName E.R d name) {x : Extents} (hx : ExtentsOf E.R d q x) :
    f.name = name ∧ f.descent = .ok x.descent ∧ f.height = .ok x.height ∧ f.width = .ok x.width := by
  cases fuel with
  | zero => cases hf
  | succ fuel =>
    rw [(buildFont_kind E fuel spec).1 hk] at hf
    obtain ⟨d', byCode, byText, table0, umap, core, table, p1, p2, p3, p4, p5, rfl⟩ := type1Font_parts hf
    have hdd : d' = d := (type1Source_of hR hun hd p1).1
    subst hdd
    obtain ⟨hs, hdw⟩ := fontCore_default p4
    obtain ⟨o, ho, hoq⟩ := numberAt_value (n := 0) hR (by simpa using hq)
    dsimp only at hdw
    rw [ho] at hdw
    cases hdw
    exact ⟨fontName_of hR hn (fontCore_attributes p4).1, descriptor_extents hR p4 hoq hx⟩

/-- **C117, Type 3 fonts**: descent and height are those of the box, scaled by the matrix; the name is that of the descriptor. -/
theorem type3_font_extents {E : FontEnv} (hR : E.R.Direct) {fuel : Nat} {spec : List (Key × Obj)} {f : Font} (hf : buildFont E fuel spec = .ok f)
    (hk : fontKind spec = .type3) {d : List (Key × Obj)} (hd : Entry E.R spec "FontDescriptor" (some (.dict d)) ∨
      ∃ b, Entry E.R spec "FontDescriptor" none ∧ dictGet spec (nm "FontBBox") = some b ∧ d = [(nm "Ascent", .int 0), (nm "Descent", .int 0), (nm "FontBBox", b)])
    {name : Obj} (hn : FontName E.R d name) {x0 y0 x1 y1 : ℚ} (hbox : FontBox E.R d x0 y0 x1 y1)
    {a b c e x y : Obj} {s : ℚ} (hm : Entry E.R spec "FontMatrix" (some (.arr [a, b, c, e, x, y]))) (hb : b.num? = some 0) (he : e.num? = some s) :
    f.name = name ∧ f.descent = .ok (y0 * s) ∧ f.height = .ok ((y1 - y0) * s) := by
  cases fuel with
  | zero => cases hf
  | succ fuel =>
    rw [(buildFont_kind E fuel spec).2.1 hk] at hf
    obtain ⟨d', byCode, umap, core, table, a', b', c', e', x', y', v0, w0, v1, w1, qa, qb, qc, qe, p1, p2, p3, p4, p5, p6, p7, n1, n2, n3, n4, rfl⟩ :=
      type3Font_parts hf
    have hdd : d' = d := by
      rcases hd with hd | ⟨b, hd, hb, rfl⟩
      · cases hd with
        | given ho hv => rw [type3Descriptor, ho] at p2; simp only [Resolver.dictValue, hv] at p2; cases p2; rfl
      · cases hd with
        | absent ho => rw [type3Descriptor, ho] at p2; simp only [hb] at p2; cases p2; rfl
    subst hdd
    obtain ⟨q1, -, -, q4, -, -⟩ := fontCore_attributes p5
    obtain ⟨a0, b0, c0, e0, q0, r0, r1, r2, r3⟩ := fontBox_of hR hbox q4
    rw [p7] at q0
    cases q0
    cases hm with
    | given om vm =>
      rw [getOr, om, Option.getD_some, Resolver.listValue, vm] at p6
      cases p6
      rw [Obj.num, hb] at n2
      rw [Obj.num, he] at n4
      cases n2
      cases n4
      have := core_extents (f := { core with descent := w0, ascent := w1, hscale := qa + qc, vscale := 0 + s }) (miss := 0) p7 r0 r1 r2 r3
        (number_num r3) (number_num r1)
      refine ⟨fontName_of hR hn q1, ?_, ?_⟩
      · refine this.1.trans ?_
        simp
      · refine this.2.1.trans ?_
        have : distanceOr y0 y1 (y1 - y0) = y1 - y0 := by unfold distanceOr; split <;> rfl
        simp [this]

/-- How the sizes of a CID font are put together. -/
theorem cidFont_core {E : FontEnv} {spec : List (Key × Obj)} {f : Font} (h : cidFont E spec = .ok f) :
    ∃ d o core, cidDescriptor E.R spec = .ok d ∧ fontCore E.R d (some o) = .ok core ∧ f.name = core.name ∧ f.height = core.height ∧
      f.descent = core.getDescent ∧ f.width = core.width ∧ (f.vertical = false → o = getOr spec "DW" (.int 1000)) ∧
      (f.vertical = true → ∃ vy, getOr spec "DW2" (.arr [.int 880, .int (-1000)]) = .arr [vy, o]) := by
  simp only [cidFont, bind, Except.bind] at h
  split at h
  · cases h
  · split at h
    · cases h
    · split at h
      · cases h
      · split at h
        · cases h
        · split at h
          · cases h
          · rename_i d hd
            split at h
            · cases h
            · split at h
              · split at h
                · cases h
                · split at h
                  · cases h
                  · split at h
                    · rename_i vy w hdw
                      split at h
                      · cases h
                      · rename_i core hcore
                        cases h
                        exact ⟨d, w, core, hd, hcore, rfl, rfl, rfl, rfl, (fun h => by simp at h), fun _ => ⟨vy, hdw⟩⟩
                    · cases h
                    · cases h
              · split at h
                · cases h
                · split at h
                  · cases h
                  · split at h
                    · cases h
                    · rename_i core hcore
                      cases h
                      exact ⟨d, _, core, hd, hcore, rfl, rfl, rfl, rfl, fun _ => rfl, fun h => by simp at h⟩

/-- **C117, CID fonts**: the name is that of the descriptor, and so are descent, height and width; `missing` is the default width `DW`, or, in
vertical writing, the default displacement in `DW2`. -/
theorem cid_font_extents {E : FontEnv} (hR : E.R.Direct) {fuel : Nat} {spec : List (Key × Obj)} {f : Font} (hf : buildFont E fuel spec = .ok f)
    (hk : fontKind spec = .cid) {d : List (Key × Obj)} (hd : Entry E.R spec "FontDescriptor" (some (.dict d)) ∨ Entry E.R spec "FontDescriptor" none ∧ d = [])
    {missing : Obj} (hh : f.vertical = false → dictGet spec (nm "DW") = some missing ∨ dictGet spec (nm "DW") = none ∧ missing = .int 1000)
    (hv : f.vertical = true → (∃ vy, dictGet spec (nm "DW2") = some (.arr [vy, missing])) ∨ dictGet spec (nm "DW2") = none ∧ missing = .int (-1000))
    {q : ℚ} (hq : missing.num? = some q) (hq0 : q ≠ 0) {name : Obj} (hn : FontName E.R d name) {x : Extents} (hx : ExtentsOf E.R d q x) :
    f.name = name ∧ f.descent = .ok x.descent ∧ f.height = .ok x.height ∧ f.width = .ok x.width := by
  cases fuel with
  | zero => cases hf
  | succ fuel =>
    rw [(buildFont_kind E fuel spec).2.2.1 hk] at hf
    obtain ⟨d', o, core, p1, p2, p3, p4, p5, p6, p7, p8⟩ := cidFont_core hf
    have hdd : d' = d := by
      rcases hd with hd | ⟨hd, rfl⟩
      · cases hd with
        | given ho hv => rw [cidDescriptor, ho] at p1; simp only [Resolver.dictValue, hv] at p1; cases p1; rfl
      · cases hd with
        | absent ho => rw [cidDescriptor, ho] at p1; cases p1; rfl
    subst hdd
    have ho : o = missing := by
      cases hvv : f.vertical with
      | false =>
        rw [p7 hvv, getOr]
        rcases hh hvv with h | ⟨h, rfl⟩ <;> rw [h] <;> rfl
      | true =>
        obtain ⟨vy, h8⟩ := p8 hvv
        rcases hv hvv with ⟨vy', h⟩ | ⟨h, rfl⟩
        · rw [getOr, h] at h8; cases h8; rfl
        · rw [getOr, h] at h8; cases h8; rfl
    subst ho
    have htr : o.truthy = true := by
      cases o with
      | int n => simp only [Obj.num?, Option.some.injEq] at hq; simp only [Obj.truthy]; subst hq; simpa using hq0
      | real m k =>
        simp only [Obj.num?, Option.some.injEq] at hq; simp only [Obj.truthy]
        subst hq
        by_contra hc
        simp at hc
        exact hq0 (by rw [hc]; simp)
      | bool b => cases b <;> simp_all [Obj.num?, Obj.truthy]
      | _ => cases hq
    have hcore := (fontCore_default p2).2
    dsimp only at hcore
    rw [if_pos htr] at hcore
    obtain ⟨r1, r2, r3⟩ := descriptor_extents hR p2 (by rw [hcore]; exact number_num hq) hx
    exact ⟨p3.trans (fontName_of hR hn (fontCore_attributes p2).1), p5.trans r1, p4.trans r2, p6.trans r3⟩

/-! The hypotheses can be met. -/

def sampleDescriptor : List (Key × Obj) := [(nm "FontName", .name (asc "Sample")), (nm "Ascent", .int 750), (nm "Descent", .int (-250)),
  (nm "MissingWidth", .int 300)]

def sampleExtentSpec : List (Key × Obj) := [(nm "Subtype", .name (asc "TrueType")), (nm "FirstChar", .int 65), (nm "Widths", .arr [.int 700]),
  (nm "FontDescriptor", .dict sampleDescriptor)]

/-- Without a box the height is from the descent to the ascent, and the width is minus the width of missing characters. -/
example : ExtentsOf sampleFontEnv.R sampleDescriptor 300 ⟨-250 / 1000, distanceOr 0 0 (750 - -250) / 1000, distanceOr 0 0 (-300) / 1000⟩ :=
  .mk (.given (v := .int 750) (.given (o := .int 750) (by decide) rfl) rfl) (.given (v := .int (-250)) (.given (o := .int (-250)) (by decide) rfl) rfl)
    (.absent (.absent (by decide)))

theorem sampleExtent_run : (match buildFont sampleFontEnv 1 sampleExtentSpec with
    | .ok f => some (f.name, f.descent.toOption, f.height.toOption, f.width.toOption)
    | .error _ => none) = some (.name (asc "Sample"), some (-1 / 4), some 1, some (-3 / 10)) := by
  decide +kernel

/-- With a box the height is that of the box, in Type 3 fonts scaled by the matrix. -/
theorem type3Extent_run : (match buildFont sampleFontEnv 1 [(nm "Subtype", .name (asc "Type3")), (nm "FontBBox", .arr [.int 0, .int (-2), .int 8, .int 6]),
      (nm "FontMatrix", .arr [.real 1 1, .int 0, .int 0, .real 1 1, .int 0, .int 0])] with
    | .ok f => some (f.name, f.descent.toOption, f.height.toOption)
    | .error _ => none) = some (.name (asc "unknown"), some (-1 / 5), some (4 / 5)) := by
  decide +kernel

end Pdf

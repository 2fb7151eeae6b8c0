import Verif.Props.DrawingYaml
import Verif.Spec.DrawingHtml
import Verif.Props.HtmlCut
/-! Written drawings in HTML (C121). -/

namespace Pdf
open Spec (Style Mark Leaf LeafOut Draws DrawsAll Dec Paint InRange HtmlFont HtmlItem HtmlOk HtmlPaint HtmlColor Refused CurveRefused ColorAttr CurveHtml ItemHtml PageHtml BlockHtml
  SvgSteps SvgData XmlContent XmlValue ReadsTag Tag starts visible inked headTags svgTo svgAttrs css pixels sizes
  RgbText RgbAttr ShapeHtml MarkHtml MarksHtml LeafHtml HtmlMark RgbTexts Placed spot AsciiMark IsImage asked ValueText corners StringBlock
  Furnished helvetica writeDrawing)

theorem valueText_xml {fmt : ℚ → PyStr} {n : Int} {s : PyStr} (h : ValueText fmt (.int n) s) : ∃ v, XmlValue s v := by
  have hd : ∀ {m : Nat} {s : PyStr}, Spec.DigitsOf m s → ∀ c ∈ s, 48 ≤ c ∧ c ≤ 57 := by
    intro m s h c hc
    obtain ⟨b, rfl, -, hb, -⟩ := h.digits
    obtain ⟨d, hd, rfl⟩ := List.mem_map.1 hc
    exact hb d hd
  have hx : ∀ {s : PyStr}, (∀ c ∈ s, (48 ≤ c ∧ c ≤ 57) ∨ c = 45) → ∃ v, XmlValue s v := by
    intro s h
    refine ⟨_, plain_value _ ?_⟩
    rw [List.all_eq_true]
    intro c hc
    have := h c hc
    have key : ∀ x, x < 58 → ((48 ≤ x ∧ x ≤ 57) ∨ x = 45) → (Spec.xmlChar x && decide (0x20 ≤ x) && decide (x ≠ 0x3c) && decide (x ≠ 0x26) && decide (x ≠ 0x22)) = true := by
      decide
    exact key c (by omega) this
  generalize ho : Obj.int n = o at h
  cases h with
  | name _ => cases ho
  | pos h => exact hx fun c hc => .inl (hd h c hc)
  | neg h =>
    refine hx fun c hc => ?_
    rcases List.mem_cons.1 hc with rfl | hc
    · exact .inr rfl
    · exact .inl (hd h c hc)
  | real => cases ho

theorem rgb_paint {env : HtmlEnv} (ht : RgbTexts env) {c : Option (Dec × Dec × Dec)} {d : Color} (h : SameColor c d) : HtmlPaint env d ∧ ¬ Spec.EmptyColor d := by
  match c, h with
  | none, h => rw [show d = ⟨none, []⟩ from h]; exact ⟨fun _ h => (nomatch h), fun ⟨_, h, _⟩ => (nomatch h)⟩
  | some (r, g, b), h =>
    obtain ⟨x, y, z, rfl, -, -, -⟩ : Spec.Rgb r g b d := h
    refine ⟨fun cs e => ?_, fun ⟨_, h, _⟩ => nomatch h⟩
    cases e
    refine ⟨ht.name, fun o ho => ?_⟩
    simp only [List.mem_cons, List.not_mem_nil, or_false] at ho
    rcases ho with rfl | rfl | rfl <;> exact valueText_xml (ht.integer _)

theorem html_rgb {env : HtmlEnv} (ht : RgbTexts env) {default t : PyStr} {r g b : Dec} {d : Color} (h : Spec.Rgb r g b d) (hc : HtmlColor env default d t) : RgbText env (r, g, b) t := by
  obtain ⟨x, y, z, rfl, n1, n2, n3⟩ := h
  have hn : (Obj.int 3).num? = some 3 := rfl
  cases hc with
  | gray h _ => rw [hn] at h; exact absurd h (by norm_num)
  | grayOther h _ => rw [hn] at h; exact absurd h (by norm_num)
  | cmyk h => rw [hn] at h; exact absurd h (by norm_num)
  | other _ h _ => exact absurd hn h
  | rgb h =>
    have e : Spec.colorArgs env [.int x, .int y, .int z] = env.valueStr (.int x) ++ pstr "," ++ env.valueStr (.int y) ++ pstr "," ++ env.valueStr (.int z) := by
      simp [Spec.colorArgs, List.intercalate]
    rw [e, ← List.append_assoc, ← List.append_assoc, ← List.append_assoc, ← List.append_assoc]
    exact .mk n1 n2 n3 (ht.integer x) (ht.integer y) (ht.integer z)

theorem attr_rgb {env : HtmlEnv} (ht : RgbTexts env) {name : String} {c : Option (Dec × Dec × Dec)} {d : Color} (h : SameColor c d) {l : List (PyStr × PyStr)}
    (hl : ColorAttr env (pstr name) d l) : RgbAttr env name c l := by
  match c, h with
  | none, h =>
    rw [show d = ⟨none, []⟩ from h] at hl
    cases hl
    exact .none
  | some (r, g, b), h =>
    have h : Spec.Rgb r g b d := h
    cases hl with
    | absent => obtain ⟨x, y, z, e, -⟩ := h; cases e
    | present hc => exact .some (html_rgb ht h hc)

theorem points_one {q : CurvePath} {p : ℚ × ℚ} {pts : List (ℚ × ℚ)} (hq : q.points = [(some p.1, some p.2)]) (h : Spec.Points q pts) : pts = [p] := by
  unfold Spec.Points at h
  rw [hq] at h
  match pts with
  | [] => simp at h
  | [a] =>
    simp only [List.map_cons, List.map_nil, List.cons.injEq, Prod.mk.injEq, Option.some.injEq, and_true] at h
    rw [show a = p from Prod.ext h.1.symm h.2.symm]
  | _ :: _ :: _ => simp at h

theorem svg_step {env : ConvEnv} {b : Bbox} {q : CurvePath} {p : ℚ × ℚ} {ch : Char} {rest : List CurvePath} {steps : List (Char × List PyStr)} (hq : q.points = [(some p.1, some p.2)])
    (hl : Spec.svgLetter q.method = some ch) (hn : q.method ≠ .closePath) (h : SvgSteps env b (q :: rest) steps) :
    ∃ r, SvgSteps env b rest r ∧ steps = svgTo env b ch p :: r := by
  cases h with
  | close h _ =>
    refine absurd ?_ hn
    generalize q.method = m at h
    cases m <;> first | rfl | cases h
  | left h _ => rw [h] at hl; cases hl
  | step h h1 h3 h2 =>
    obtain rfl := points_one hq h3
    rw [hl] at h
    cases h
    exact ⟨_, h2, rfl⟩

/-- A path through points, as steps of SVG. -/
theorem svg_lines {env : ConvEnv} {b : Bbox} {pts : List (ℚ × ℚ)} {rest : List CurvePath} {steps : List (Char × List PyStr)} (h : SvgSteps env b (pts.map Spec.lineTo ++ rest) steps) :
    ∃ r, SvgSteps env b rest r ∧ steps = pts.map (svgTo env b 'L') ++ r := by
  induction pts generalizing steps with
  | nil => exact ⟨_, h, rfl⟩
  | cons p pts ih =>
    rw [List.map_cons, List.cons_append] at h
    obtain ⟨r, r1, rfl⟩ := svg_step (p := p) (ch := 'L') rfl rfl (fun e => by cases e) h
    obtain ⟨r, r2, rfl⟩ := ih r1
    exact ⟨r, r2, rfl⟩

theorem svg_move {env : ConvEnv} {b : Bbox} {p : ℚ × ℚ} {rest : List CurvePath} {steps : List (Char × List PyStr)} (h : SvgSteps env b (⟨.moveTo, [(some p.1, some p.2)]⟩ :: rest) steps) :
    ∃ r, SvgSteps env b rest r ∧ steps = svgTo env b 'M' p :: r :=
  svg_step (p := p) (ch := 'M') rfl rfl (fun e => by cases e) h

theorem svg_end {env : ConvEnv} {b : Bbox} {closed : Bool} {steps : List (Char × List PyStr)} (h : SvgSteps env b (if closed then [⟨.closePath, []⟩] else []) steps) :
    steps = if closed then [('Z', [])] else [] := by
  cases closed with
  | false => cases h; rfl
  | true =>
    cases h with
    | close _ h => cases h; rfl
    | step h hc _ _ => cases h; exact absurd rfl hc
    | left h _ => cases h

/-- The tags of a curve through points. -/
theorem shape_html {env : HtmlEnv} (ht : RgbTexts env) {pageHeight : ℚ} {σ : Paint} {c : Curve} {tags : List Tag} (h : CurveHtml env pageHeight c tags)
    (hf : SameColor σ.fill c.fill) (hs : SameColor σ.stroke c.stroke) {around : List (ℚ × ℚ)} (hb : SmallestBox c.bbox around) {p : ℚ × ℚ} {more : List (ℚ × ℚ)} {closed : Bool}
    (hp : c.paths = ⟨.moveTo, [(some p.1, some p.2)]⟩ :: (more.map Spec.lineTo ++ if closed then [⟨.closePath, []⟩] else [])) :
    ShapeHtml env pageHeight σ around p more closed tags := by
  cases h with
  | mk h1 h2 h3 h4 =>
    rw [hp] at h4
    obtain ⟨r, r1, rfl⟩ := svg_move h4
    obtain ⟨r, r2, rfl⟩ := svg_lines r1
    obtain rfl := svg_end r2
    exact ⟨_, _, _, _, hb, attr_rgb ht hf h1, attr_rgb ht hs h2, h3, rfl⟩

/-- A curve through points that are not all the same is not refused. -/
theorem curve_htmlOk {env : HtmlEnv} (ht : RgbTexts env) {σ : Paint} {c : Curve} (hf : SameColor σ.fill c.fill) (hs : SameColor σ.stroke c.stroke) {around : List (ℚ × ℚ)}
    (hb : SmallestBox c.bbox around) (hne : ∃ u ∈ around, ∃ v ∈ around, u ≠ v) {p : ℚ × ℚ} {more : List (ℚ × ℚ)} {closed : Bool}
    (hp : c.paths = ⟨.moveTo, [(some p.1, some p.2)]⟩ :: (more.map Spec.lineTo ++ if closed then [⟨.closePath, []⟩] else [])) :
    HtmlItem env (.curve c) ∧ ¬ Refused env (.curve c) := by
  have hm : ∀ q ∈ c.paths, (∃ v : ℚ × ℚ, q.points = [(some v.1, some v.2)]) ∨ (q.method = .closePath ∧ q.points = []) := by
    rw [hp]
    intro q hq
    rcases List.mem_cons.1 hq with rfl | hq
    · exact .inl ⟨p, rfl⟩
    · rcases List.mem_append.1 hq with hq | hq
      · obtain ⟨v, -, rfl⟩ := List.mem_map.1 hq
        exact .inl ⟨v, rfl⟩
      · cases closed with
        | false => cases hq
        | true => rw [List.mem_singleton.1 hq]; exact .inr ⟨rfl, rfl⟩
  refine ⟨.curve (fun q hq hc => ?_) (rgb_paint ht hf).1 (rgb_paint ht hs).1, fun hr => ?_⟩
  · rcases hm q hq with ⟨v, e⟩ | ⟨e, -⟩
    · rw [e]; simp
    · exact absurd e hc
  · cases hr with
    | curve hr =>
      cases hr with
      | dot h1 h2 =>
        obtain ⟨u, hu, v, hv, huv⟩ := hne
        obtain ⟨a1, a2, a3, a4⟩ := hb.contains u hu
        obtain ⟨b1, b2, b3, b4⟩ := hb.contains v hv
        refine huv (Prod.ext ?_ ?_)
        · rw [h1] at a1 b1; exact le_antisymm (a2.trans b1) (b2.trans a1)
        · exact le_antisymm ((a4.trans h2).trans b3) ((b4.trans h2).trans a3)
      | point hq _ hpt hn =>
        rcases hm _ hq with ⟨v, e⟩ | ⟨-, e⟩
        · rw [e, List.mem_singleton] at hpt
          rw [hpt] at hn
          rcases hn with hn | hn <;> cases hn
        · rw [e] at hpt; cases hpt
      | fill h => exact (rgb_paint ht hf).2 h
      | stroke h => exact (rgb_paint ht hs).2 h

/-- Delivered marks can be written in HTML, and their tags. -/
theorem draws_html {env : HtmlEnv} (ht : RgbTexts env) {f : Font} (hf : HelveticaFont f) (hx : HtmlFont env f) (hw : env.fontWeight f ≠ none) {ig : Bool}
    {images : List (List (Key × Obj) × Bytes)} (hi : ∀ i ∈ images, ∃ v, XmlValue (env.imageName i.1 i.2) v) {σ σ' : Style} {m : Mark} {is : List Item}
    (hm : AsciiMark images.length m) (hpl : HtmlMark m) (pageHeight : ℚ)
    (h : Draws f ig images σ m σ' is) {τ : Paint} (hτf : SameColor τ.fill σ.fill) (hτs : SameColor τ.stroke σ.stroke) :
    (∀ i ∈ is, HtmlItem env i ∧ ¬ Refused env i) ∧ ∃ τ' : Paint, SameColor τ'.fill σ'.fill ∧ SameColor τ'.stroke σ'.stroke ∧
      ∀ ts, List.Forall₂ (ItemHtml env pageHeight) is ts → MarkHtml env f ig images pageHeight τ m τ' ts.flatten := by
  cases h with
  | @fill r g b c hc => exact ⟨by simp, ⟨some (r, g, b), τ.stroke⟩, hc, hτs, fun ts h => by cases h; exact .fill⟩
  | @stroke r g b c hc => exact ⟨by simp, ⟨τ.fill, some (r, g, b)⟩, hτf, hc, fun ts h => by cases h; exact .stroke⟩
  | width => exact ⟨by simp, τ, hτf, hτs, fun ts h => by cases h; exact .width⟩
  | @rect x y w h ps b hq hb =>
    have hp : ps = ⟨.moveTo, [(some (x.val, y.val).1, some (x.val, y.val).2)]⟩ ::
        ([(x.val + w.val, y.val), (x.val + w.val, y.val + h.val), (x.val, y.val + h.val)].map Spec.lineTo ++ if true then [⟨.closePath, []⟩] else []) := hq
    refine ⟨fun i h' => ?_, τ, hτf, hτs, fun ts h' => ?_⟩
    · rw [List.mem_singleton.1 h']
      refine curve_htmlOk ht hτf hτs hb ⟨_, List.mem_cons_self, _, List.mem_cons_of_mem _ List.mem_cons_self, fun e => ?_⟩ hp
      simp only [Prod.mk.injEq, left_eq_add] at e
      rcases (show w.val ≠ 0 ∨ h.val ≠ 0 from hpl) with hn | hn
      · exact hn e.1
      · exact hn e.2
    · cases h' with
      | cons h1 hn =>
        cases hn
        cases h1 with
        | curve hc =>
          rw [List.flatten_singleton]
          exact .rect (shape_html ht hc hτf hτs hb hp)
  | @segment p q k b hk hb =>
    obtain ⟨⟨v, hv, hne⟩, -⟩ : (∃ v ∈ [q], spot v ≠ spot p) ∧ _ := hpl
    rw [List.mem_singleton.1 hv] at hne
    have hp : [⟨.moveTo, [(some p.1.val, some p.2.val)]⟩, Spec.lineTo (spot q)] = (⟨.moveTo, [(some (spot p).1, some (spot p).2)]⟩ ::
        ([spot q].map Spec.lineTo ++ if false then [⟨.closePath, []⟩] else []) : List CurvePath) := rfl
    refine ⟨fun i h' => ?_, τ, hτf, hτs, fun ts h' => ?_⟩
    · rw [List.mem_singleton.1 h']
      exact curve_htmlOk ht hτf hτs hb ⟨_, List.mem_cons_of_mem _ List.mem_cons_self, _, List.mem_cons_self, hne⟩ hp
    · cases h' with
      | cons h1 hn =>
        cases hn
        cases h1 with
        | curve hc =>
          rw [List.flatten_singleton]
          exact .path (shape_html ht hc hτf hτs hb hp)
  | @path p q r more b hb =>
    obtain ⟨⟨v, hv, hne⟩, hr⟩ : (∃ v ∈ q :: r :: more, spot v ≠ spot p) ∧ (r :: more ≠ [] → InRange ((p :: q :: r :: more).map spot)) := hpl
    have hb := hb fun v hv => hr (by simp) _ (List.mem_map_of_mem hv)
    have hp : ⟨.moveTo, [(some p.1.val, some p.2.val)]⟩ :: (q :: r :: more).map (fun v => Spec.lineTo (spot v)) = (⟨.moveTo, [(some (spot p).1, some (spot p).2)]⟩ ::
        (((q :: r :: more).map spot).map Spec.lineTo ++ if false then [⟨.closePath, []⟩] else []) : List CurvePath) := by
      rw [List.map_map]
      simp [Function.comp_def, spot]
    refine ⟨fun i h' => ?_, τ, hτf, hτs, fun ts h' => ?_⟩
    · rw [List.mem_singleton.1 h']
      exact curve_htmlOk ht hτf hτs hb ⟨_, List.mem_map_of_mem (List.mem_cons_of_mem _ hv), _, List.mem_map_of_mem List.mem_cons_self, hne⟩ hp
    · cases h' with
      | cons h1 hn =>
        cases hn
        cases h1 with
        | curve hc =>
          rw [List.flatten_singleton]
          exact .path (shape_html ht hc hτf hτs hb hp)
  | image hg hb =>
    refine ⟨fun i h => ?_, τ, hτf, hτs, fun ts h => ?_⟩
    · rw [List.mem_singleton.1 h]
      exact ⟨.image (hi _ (List.mem_of_getElem? hg)), fun h => nomatch h⟩
    cases h with
    | cons h1 hn =>
      cases hn
      cases h1
      exact .image hg fun hr => hb fun v hv => hr _ (List.mem_map_of_mem hv)
  | @text size x y s b hb =>
    have hs := helvetica_text hf hm.2 hb.text
    have hcol : SameColor τ.fill b.color := by rw [hb.color]; exact hτf
    refine ⟨fun i h => ?_, τ, hτf, hτs, fun ts h => ?_⟩
    · rw [List.mem_singleton.1 h]
      refine ⟨.text fun cb hcb => ?_, fun hr => ?_⟩
      · rw [List.mem_singleton.1 hcb]
        refine ⟨fun c hc u hu => ?_, by rw [hb.font]; exact hx, (rgb_paint ht hcol).1⟩
        have h' : u ∈ (b.chars.map Prod.fst).flatten := List.mem_flatten.2 ⟨c.1, List.mem_map.2 ⟨c, hc, rfl⟩, hu⟩
        rw [hs] at h'
        exact (show Spec.NoMarkup (s.map UInt8.toNat) from hpl) u h'
      · cases hr with
        | weight hcb hn =>
          rw [List.mem_singleton.1 hcb, hb.font] at hn
          exact hw hn
        | color hcb hn =>
          rw [List.mem_singleton.1 hcb] at hn
          exact (rgb_paint ht hcol).2 hn
    · cases h with
      | cons h1 hn =>
        cases hn
        cases h1 with
        | text h2 =>
          cases h2 with
          | cons h2 hn =>
            cases hn
            cases h2 with
            | @mk weight color hwt hct =>
              obtain ⟨codes, c1, c2⟩ := hb.places hf.upright
              rw [hf.decode] at c1
              cases c1
              rw [hb.font] at hwt
              rw [List.flatten_singleton, List.flatten_singleton, hb.font, hb.height hf.upright]
              refine .text (box := b.bbox) (color := color) (fun hn => ?_) (fun c hc => ?_) hwt hb.extent c2
              · rw [hn] at hcol
                rw [show b.color = ⟨none, []⟩ from hcol] at hct
                cases hct
                rfl
              · rw [hc] at hcol
                obtain ⟨r, g, bl⟩ := c
                exact html_rgb ht hcol hct

theorem drawsAll_html {env : HtmlEnv} (ht : RgbTexts env) {f : Font} (hf : HelveticaFont f) (hx : HtmlFont env f) (hw : env.fontWeight f ≠ none) {ig : Bool}
    {images : List (List (Key × Obj) × Bytes)} (hi : ∀ i ∈ images, ∃ v, XmlValue (env.imageName i.1 i.2) v) (pageHeight : ℚ) {σ : Style} {ms : List Mark} {is : List Item}
    (h : DrawsAll f ig images σ ms is) (hm : ∀ m ∈ ms, AsciiMark images.length m ∧ HtmlMark m) {τ : Paint} (hτf : SameColor τ.fill σ.fill)
    (hτs : SameColor τ.stroke σ.stroke) :
    (∀ i ∈ is, HtmlItem env i ∧ ¬ Refused env i) ∧ ∀ ts, List.Forall₂ (ItemHtml env pageHeight) is ts → MarksHtml env f ig images pageHeight τ ms ts.flatten := by
  induction h generalizing τ with
  | nil => exact ⟨by simp, fun ts h => by cases h; exact .nil⟩
  | @cons σ m σ' is ms l h1 _ ih =>
    obtain ⟨d1, τ', m2, m3, d⟩ := draws_html ht hf hx hw hi (hm _ (by simp)).1 (hm _ (by simp)).2 pageHeight h1 hτf hτs
    obtain ⟨i1, i2⟩ := ih (fun x hx => hm x (by simp [hx])) m2 m3
    refine ⟨fun i h => ?_, fun ts hts => ?_⟩
    · rcases List.mem_append.1 h with h | h
      · exact d1 i h
      · exact i1 i h
    · obtain ⟨t1, t2, k1, k2, rfl⟩ := forall2_split hts
      rw [List.flatten_append]
      exact .cons (d t1 k1) (i2 t2 k2)

/-- **C121.** A written drawing converted to HTML: a well-formed document that can be read in one way, with the pages that are asked for, in order, and on each page the tags of
every mark, with its place, its path and its colours; and the visible text is that of the style sheet and the strings. -/
theorem drawing_html (S : Setup) (h : Furnished S) (opts : Options) (images : List (List (Key × Obj) × Bytes)) (him : ∀ i ∈ images, IsImage i) (pages : List Leaf)
    (hp : ∀ p ∈ pages, ∀ m ∈ p.marks, AsciiMark images.length m) (hc : ∀ p ∈ pages, ∀ m ∈ p.marks, HtmlMark m) (maxpages : Nat)
    (hmax : opts.maxpages = maxpages) (hne : asked opts.pagenos maxpages pages ≠ []) :
    ∃ f, (∃ k R, buildFont (S.fontEnv R) k helvetica = .ok f) ∧ ∃ N, ∀ fuel ≥ N, ∀ (env : HtmlEnv) (codec : PyStr), HtmlOk env → RgbTexts env → (∃ v, XmlValue codec v) →
      HtmlFont env f → env.fontWeight f ≠ none → (∀ i ∈ images, ∃ v, XmlValue (env.imageName i.1 i.2) v) →
      ∃ file ev, convertHtml env codec S opts fuel (writeDrawing helvetica images pages) = (file, .done) ∧ XmlContent file ev ∧ (∀ ev', XmlContent file ev' → ev' = ev) ∧
        visible ev = inked Spec.sheet ++ inked ((asked opts.pagenos maxpages pages).flatMap fun p => (p.marks.flatMap Mark.string).map UInt8.toNat) ∧
        ∃ tags, List.Forall₂ (fun x ts => LeafHtml env f opts.ignoreBad images x.2 x.1 ts) (asked opts.pagenos maxpages pages).zipIdx tags ∧
          List.Forall₂ ReadsTag (headTags codec ++ tags.flatten) (starts ev) := by
  obtain ⟨f, hb, hf, outs, k1, N, k2⟩ := written_drawing S h opts images him pages hp maxpages hmax hne
  refine ⟨f, hb, N, fun fuel hfu env codec henv ht hcd hxf hw hi => ?_⟩
  obtain ⟨hdel, -⟩ := k2 fuel hfu
  clear k2
  have hmem : ∀ p ∈ asked opts.pagenos maxpages pages, ∀ m ∈ p.marks, AsciiMark images.length m ∧ HtmlMark m :=
    fun p hpa m hm => ⟨hp p (mem_asked hpa) m hm, hc p (mem_asked hpa) m hm⟩
  generalize asked opts.pagenos maxpages pages = leaves at k1 hmem ⊢
  have s0 : SameColor none ⟨none, []⟩ := rfl
  have hitems : ∀ p ∈ pagesWith 0 outs, ∀ i ∈ p.items, HtmlItem env i ∧ ¬ Refused env i := by
    clear hdel
    generalize 0 = num
    induction k1 generalizing num with
    | nil => intro p hp; cases hp
    | @cons p out l os ho _ ih =>
      intro q hq
      obtain ⟨items, rfl, hd⟩ := ho
      rcases List.mem_cons.1 hq with rfl | hq
      · exact (drawsAll_html ht hf hxf hw hi 0 hd (hmem p (by simp)) (τ := ⟨none, none⟩) s0 s0).1
      · exact ih (fun x hx => hmem x (List.mem_cons_of_mem _ hx)) _ q hq
  have hshow : List.Forall₂ Spec.PageShows (pagesWith 0 outs) (leaves.map fun p => (p.marks.flatMap Mark.string).map UInt8.toNat) := by
    clear hdel hitems
    generalize 0 = num
    induction k1 generalizing num with
    | nil => exact .nil
    | @cons p out l os ho _ ih =>
      obtain ⟨items, rfl, hd⟩ := ho
      exact .cons (drawsAll_shows hf hd (fun m hm => (hmem p (by simp) m hm).1)) (ih (fun x hx => hmem x (List.mem_cons_of_mem _ hx)) _)
  obtain ⟨file, ev, h1, h2, h3, h4, tags, h5, h6⟩ := html_document_partial env henv codec hcd _ hitems _ hshow
  refine ⟨file, ev, ?_, h2, h3, by rw [h4, List.flatMap_def], tags, ?_, h6⟩
  · unfold convertHtml
    rw [hdel]
    exact htmlRun_done env codec _ (fun p hp i hi' => (hitems p hp i hi').2) h1
  clear hdel h1 h2 h3 h4 h6 hitems hshow
  generalize 0 = num at h5 ⊢
  induction k1 generalizing num tags with
  | nil => cases h5; exact .nil
  | @cons p out l os ho _ ih =>
    cases h5 with
    | @cons _ j _ js hj hr =>
      rw [List.zipIdx_cons]
      refine .cons ?_ (ih (fun x hx => hmem x (List.mem_cons_of_mem _ hx)) _ _ hr)
      obtain ⟨items, rfl, hd⟩ := ho
      obtain ⟨ts, c1, rfl⟩ := hj
      exact ⟨_, (drawsAll_html ht hf hxf hw hi p.height.val hd (hmem p (by simp)) (τ := ⟨none, none⟩) s0 s0).2 _ c1, rfl⟩

/-! The hypotheses can be met. -/

/-- Texts for the example: all numbers are written as `0`, apart from integers in colours, which are their digits. -/
def posterHtml : HtmlEnv where
  toConvEnv := posterTexts.conv
  fontName := fun _ => pstr "Helvetica"
  fontWeight := fun _ => some (pstr "bold")
  italicAngle := fun _ => pstr "0"
  spaceName := fun _ => pstr "DeviceRGB"
  valueStr := valueName posterTexts

theorem posterHtml_rgb : RgbTexts posterHtml :=
  ⟨fun _ => valueName_text posterTexts trivial, _, plain_value (pstr "DeviceRGB") (by decide)⟩

theorem posterHtml_font (f : Font) : HtmlFont posterHtml f :=
  ⟨⟨_, plain_value (pstr "Helvetica") (by decide)⟩, fun w h => by cases h; exact ⟨_, plain_value (pstr "bold") (by decide)⟩, ⟨_, plain_value (pstr "0") (by decide)⟩⟩

/-- The poster in HTML: a page with two pictures of a path, an image and a string of three characters; and the string is what is seen. -/
example : ∃ N, ∀ fuel ≥ N, ∃ file ev, convertHtml posterHtml (pstr "utf-8") sampleSetup {} fuel (writeDrawing helvetica [sampleGray] [samplePoster]) = (file, .done) ∧
    XmlContent file ev ∧ visible ev = inked Spec.sheet ++ pstr "Hi!" ∧
    (starts ev).map Prod.fst = (headTags (pstr "utf-8")).map Prod.fst ++ [pstr "div", pstr "svg", pstr "path", pstr "svg", pstr "path", pstr "img", pstr "span", pstr "span",
      pstr "span", pstr "span", pstr "span"] := by
  have ha : asked ({} : Options).pagenos 0 [samplePoster] = [samplePoster] := by simp [asked, Spec.Wanted]
  obtain ⟨f, _, N, k⟩ := drawing_html sampleSetup sample_furnished {} [sampleGray] (by intro i hi; rw [List.mem_singleton.1 hi]; exact sampleGray_image) [samplePoster]
    (by
      intro p hp m hm
      rw [List.mem_singleton.1 hp] at hm
      simp only [samplePoster, List.mem_cons, List.not_mem_nil, or_false] at hm
      rcases hm with rfl | rfl | rfl | rfl | rfl | rfl
      · trivial
      · trivial
      · trivial
      · trivial
      · exact Nat.zero_lt_one
      · exact ⟨by decide, by decide⟩)
    (by
      intro p hp m hm
      rw [List.mem_singleton.1 hp] at hm
      simp only [samplePoster, List.mem_cons, List.not_mem_nil, or_false] at hm
      rcases hm with rfl | rfl | rfl | rfl | rfl | rfl
      · trivial
      · trivial
      · exact .inl (by decide +kernel)
      · exact ⟨⟨_, List.mem_singleton_self _, by decide +kernel⟩, fun h => absurd rfl h⟩
      · trivial
      · show Spec.NoMarkup ((asc "Hi!").map UInt8.toNat)
        unfold Spec.NoMarkup
        decide +kernel) 0 rfl (by rw [ha]; simp)
  refine ⟨N, fun fuel hf => ?_⟩
  obtain ⟨file, ev, h1, h2, -, h3, tags, h4, h5⟩ := k fuel hf posterHtml (pstr "utf-8") ⟨sampleHtml_ok.number⟩ posterHtml_rgb ⟨_, plain_value (pstr "utf-8") (by decide)⟩
    (posterHtml_font f) (fun h => nomatch h) (fun i _ => ⟨_, by
      rw [show posterHtml.imageName i.1 i.2 = pstr "img" from posterTexts_image i.1 i.2]
      exact plain_value (pstr "img") (by decide)⟩)
  rw [ha] at h3 h4
  refine ⟨file, ev, h1, h2, ?_, ?_⟩
  · rw [h3]
    congr 1
  rw [reads_names h5, List.map_append]
  congr 1
  cases h4 with
  | cons hl hn =>
  cases hn
  obtain ⟨l, l1, rfl⟩ := hl
  simp only [samplePoster] at l1
  cases l1 with
  | cons d1 l1 =>
  cases d1
  cases l1 with
  | cons d2 l1 =>
  cases d2
  cases l1 with
  | cons d3 l1 =>
  cases d3 with
  | rect s1 =>
  obtain ⟨b, s, q, d, -, -, -, -, rfl⟩ := s1
  cases l1 with
  | cons d4 l1 =>
  cases d4 with
  | path s2 =>
  obtain ⟨b2, s2, q2, d2, -, -, -, -, rfl⟩ := s2
  cases l1 with
  | cons d5 l1 =>
  cases d5 with
  | image hg _ =>
  cases l1 with
  | cons d6 l1 =>
  cases d6 with
  | text _ _ _ _ d6 =>
  cases l1
  have e : (asc "Hi!").map (fun c => (c.toNat : Int)) = [72, 105, 33] := by decide +kernel
  rw [e] at d6
  cases d6 with
  | cons _ _ _ _ _ d6 =>
  cases d6 with
  | cons _ _ _ _ _ d6 =>
  cases d6 with
  | cons _ _ _ _ _ d6 =>
  cases d6
  rfl

end Pdf

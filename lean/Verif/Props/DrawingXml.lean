import Verif.Props.DrawingJson
import Verif.Spec.DrawingXml
/-! Written drawings in XML (C119). -/

namespace Pdf
open Spec (Style Mark Leaf LeafOut Draws DrawsAll Dec Paint InRange XmlFont XmlItem XmlEnv XmlColor XmlContent XmlValue ItemTags PageTags ReadsTag Tag starts textIn
  ColorTexts ShapeTag MarkTags MarksTags LeafTags pathTags boxAttrs colorAttrs curveTags blockTags Placed spot AsciiMark IsImage asked ValueText corners StringBlock
  Furnished helvetica writeDrawing)

theorem integer_plain (n : Int) : encText (intDigits n) = intDigits n := by
  have hd : ∀ m, ∀ c ∈ numText m, Spec.Numeral c := by
    intro m c hc
    obtain ⟨d, h, rfl⟩ := List.mem_map.1 hc
    exact (decimal_facts m).2.1 d h
  refine plain_enc fun c hc => ?_
  unfold intDigits at hc
  split at hc
  · rcases List.mem_cons.1 hc with rfl | hc
    · exact .inr (.inr (.inr (.inr rfl)))
    · exact .inr (.inr (.inl (hd _ c hc)))
  · exact .inr (.inr (.inl (hd _ c hc)))

theorem integer_printable (t : PyTexts) (n : Int) : Spec.PrintableAscii (valueName t (.int n)) := by
  have hd : ∀ m, ∀ c ∈ numText m, 0x20 ≤ c ∧ c ≤ 0x7e := by
    intro m c hc
    obtain ⟨d, h, rfl⟩ := List.mem_map.1 hc
    have := (decimal_facts m).2.1 d h
    omega
  intro c hc
  change c ∈ intDigits n at hc
  unfold intDigits at hc
  split at hc
  · rcases List.mem_cons.1 hc with rfl | hc
    · decide
    · exact hd _ c hc
  · exact hd _ c hc

/-- The attributes of a colour of the page. -/
theorem rgb_texts (t : PyTexts) (key : PyStr) {c : Option (Dec × Dec × Dec)} {d : Color} (h : SameColor c d) : ColorTexts t.fmt key c (colorAttrs t.conv key d) := by
  match c, h with
  | none, h => rw [show d = ⟨none, []⟩ from h]; exact .none
  | some (r, g, b), h =>
    obtain ⟨x, y, z, rfl, n1, n2, n3⟩ : Spec.Rgb r g b d := h
    have e1 : spaceText ⟨asc "DeviceRGB", .int 3⟩ = pstr "DeviceRGB" := by decide +kernel
    have e2 : normalizeText t [.int x, .int y, .int z] = valueName t (.int x) ++ pstr "," ++ valueName t (.int y) ++ pstr "," ++ valueName t (.int z) := by
      show encText (intDigits x) ++ pstr "," ++ (encText (intDigits y) ++ pstr "," ++ encText (intDigits z)) = _
      rw [integer_plain, integer_plain, integer_plain]
      simp only [List.append_assoc]
      rfl
    have : colorAttrs t.conv key ⟨some ⟨asc "DeviceRGB", .int 3⟩, [.int x, .int y, .int z]⟩ =
        [(key ++ pstr "-type", pstr "DeviceRGB"), (key ++ pstr "-values", valueName t (.int x) ++ pstr "," ++ valueName t (.int y) ++ pstr "," ++ valueName t (.int z))] := by
      rw [← e1, ← e2]
      rfl
    rw [this]
    exact .some n1 n2 n3 (valueName_text t trivial) (valueName_text t trivial) (valueName_text t trivial)

theorem rgb_xml (t : PyTexts) {c : Option (Dec × Dec × Dec)} {d : Color} (h : SameColor c d) : XmlColor t.conv d := by
  match c, h with
  | none, h => rw [show d = ⟨none, []⟩ from h]; exact fun _ h => nomatch h
  | some (r, g, b), h =>
    obtain ⟨x, y, z, rfl, -, -, -⟩ : Spec.Rgb r g b d := h
    refine (color_xml t (fun cs e => ?_) fun v hv => ?_).1
    · cases e
      unfold Spec.PrintableAscii
      decide +kernel
    · simp only [List.mem_cons, List.not_mem_nil, or_false] at hv
      rcases hv with rfl | rfl | rfl <;> exact integer_printable t _

theorem shape_tag (t : PyTexts) {c : Curve} {σ : Paint} (hf : SameColor σ.fill c.fill) (hs : SameColor σ.stroke c.stroke) {pts : List (ℚ × ℚ)} (hb : SmallestBox c.bbox pts) :
    ∀ {name : String}, Spec.kindName c.kind = pstr name →
      ShapeTag t.conv name σ pts (Spec.kindName c.kind, boxAttrs t.conv c.bbox ++ colorAttrs t.conv (pstr "stroke") c.stroke ++ colorAttrs t.conv (pstr "fill") c.fill) :=
  fun ht => ⟨_, _, _, hb, rgb_texts t _ hs, rgb_texts t _ hf, by rw [ht]⟩

/-- Delivered marks can be written in XML, and their tags. -/
theorem draws_xml (t : PyTexts) {f : Font} (hf : HelveticaFont f) (hx : XmlFont t.conv f) {ig : Bool} {images : List (List (Key × Obj) × Bytes)}
    (hi : ∀ i ∈ images, ∃ v, XmlValue (t.conv.imageName i.1 i.2) v) {σ σ' : Style} {m : Mark} {is : List Item} (hm : AsciiMark images.length m)
    (h : Draws f ig images σ m σ' is) {τ : Paint} (hτf : SameColor τ.fill σ.fill) (hτs : SameColor τ.stroke σ.stroke) :
    (∀ i ∈ is, XmlItem t.conv i) ∧ ∀ ts, List.Forall₂ (ItemTags t.conv) is ts →
      ∃ τ', MarkTags t.conv f ig images τ m τ' ts.flatten ∧ SameColor τ'.fill σ'.fill ∧ SameColor τ'.stroke σ'.stroke := by
  cases h with
  | fill hc => exact ⟨by simp, fun ts h => by cases h; exact ⟨_, .fill, hc, hτs⟩⟩
  | stroke hc => exact ⟨by simp, fun ts h => by cases h; exact ⟨_, .stroke, hτf, hc⟩⟩
  | width => exact ⟨by simp, fun ts h => by cases h; exact ⟨_, .width, hτf, hτs⟩⟩
  | rect hq hb =>
    refine ⟨fun i h => by rw [List.mem_singleton.1 h]; exact .curve (rgb_xml t hτs) (rgb_xml t hτf), fun ts h => ?_⟩
    cases h with
    | cons h1 hn =>
      cases hn
      cases h1
      rw [List.flatten_singleton]
      exact ⟨_, .rect (shape_tag t hτf hτs hb rfl), hτf, hτs⟩
  | segment hk hb =>
    refine ⟨fun i h => by rw [List.mem_singleton.1 h]; exact .curve (rgb_xml t hτs) (rgb_xml t hτf), fun ts h => ?_⟩
    cases h with
    | cons h1 hn =>
      cases hn
      cases h1
      rw [List.flatten_singleton]
      cases hk <;> exact ⟨_, .line (shape_tag t hτf hτs hb rfl), hτf, hτs⟩
  | @path p q r more b hb =>
    refine ⟨fun i h => by rw [List.mem_singleton.1 h]; exact .curve (rgb_xml t hτs) (rgb_xml t hτf), fun ts h => ?_⟩
    cases h with
    | cons h1 hn =>
      cases hn
      cases h1
      refine ⟨τ, ?_, hτf, hτs⟩
      have e : ([curveTags t.conv ⟨.curve, σ.width, ⟨.moveTo, [(some p.1.val, some p.2.val)]⟩ :: (q :: r :: more).map (fun v => Spec.lineTo (spot v)), b, σ.stroke, σ.fill, false⟩]).flatten =
          (pstr "curve", boxAttrs t.conv b ++ colorAttrs t.conv (pstr "stroke") σ.stroke ++ colorAttrs t.conv (pstr "fill") σ.fill) ::
            pathTags t.conv "MOVE_TO" p ++ (q :: r :: more).flatMap (pathTags t.conv "LINE_TO") := by
        rw [List.flatten_singleton]
        unfold curveTags
        rw [if_pos rfl, List.flatMap_cons, List.flatMap_map]
        rfl
      rw [e]
      exact .path fun hr => ⟨b, _, _, hb fun v hv => hr _ (List.mem_map_of_mem hv), rgb_texts t _ hτs, rgb_texts t _ hτf, rfl⟩
  | image hg hb =>
    refine ⟨fun i h => by rw [List.mem_singleton.1 h]; exact .image (hi _ (List.mem_of_getElem? hg)), fun ts h => ?_⟩
    cases h with
    | cons h1 hn =>
      cases hn
      cases h1
      exact ⟨_, .image hg fun hr => hb fun v hv => hr _ (List.mem_map_of_mem hv), hτf, hτs⟩
  | @text size x y s b hb =>
    refine ⟨fun i h => ?_, fun ts h => ?_⟩
    · rw [List.mem_singleton.1 h]
      refine .text fun cb hcb => ?_
      rw [List.mem_singleton.1 hcb]
      refine ⟨fun c hc x hxc => ?_, by rw [hb.color]; exact rgb_xml t hτf, by rw [hb.font]; exact hx.descriptor, by rw [hb.font]; exact hx.names, by rw [hb.font]; exact hx.fresh⟩
      have h' : x ∈ (b.chars.map Prod.fst).flatten := List.mem_flatten.2 ⟨c.1, List.mem_map.2 ⟨c, hc, rfl⟩, hxc⟩
      rw [helvetica_text hf hm.2 hb.text] at h'
      obtain ⟨u, hu, rfl⟩ := List.mem_map.1 h'
      have := hm.2 u hu
      unfold Spec.xmlChar
      simp
      omega
    · cases h with
      | cons h1 hn =>
        cases hn
        cases h1
        obtain ⟨codes, c1, c2⟩ := hb.places hf.upright
        rw [hf.decode] at c1
        cases c1
        refine ⟨τ, ?_, hτf, hτs⟩
        rw [List.flatten_singleton, List.flatMap_singleton]
        unfold blockTags
        rw [hb.height hf.upright]
        refine .text (box := b.bbox) (rgb_texts t (pstr "color") (show SameColor τ.fill b.color by rw [hb.color]; exact hτf)) (fun p hp hl => ?_) hb.extent c2
        refine List.mem_map.2 ⟨p, List.mem_filter.2 ⟨by rw [hb.font]; exact hp, ?_⟩, rfl⟩
        simpa using hl

theorem drawsAll_xml (t : PyTexts) {f : Font} (hf : HelveticaFont f) (hx : XmlFont t.conv f) {ig : Bool} {images : List (List (Key × Obj) × Bytes)}
    (hi : ∀ i ∈ images, ∃ v, XmlValue (t.conv.imageName i.1 i.2) v) {σ : Style} {ms : List Mark} {is : List Item} (h : DrawsAll f ig images σ ms is)
    (hm : ∀ m ∈ ms, AsciiMark images.length m) {τ : Paint} (hτf : SameColor τ.fill σ.fill) (hτs : SameColor τ.stroke σ.stroke) {ts : List (List Tag)}
    (hts : List.Forall₂ (ItemTags t.conv) is ts) : MarksTags t.conv f ig images τ ms ts.flatten := by
  induction h generalizing τ ts with
  | nil => cases hts; exact .nil
  | @cons σ m σ' is ms l h1 _ ih =>
    obtain ⟨t1, t2, k1, k2, rfl⟩ := forall2_split hts
    obtain ⟨-, d⟩ := draws_xml t hf hx hi (hm _ (by simp)) h1 hτf hτs
    obtain ⟨τ', m1, m2, m3⟩ := d t1 k1
    rw [List.flatten_append]
    exact .cons m1 (ih (fun x hx => hm x (by simp [hx])) m2 m3 k2)

theorem drawsAll_xmlItem (t : PyTexts) {f : Font} (hf : HelveticaFont f) (hx : XmlFont t.conv f) {ig : Bool} {images : List (List (Key × Obj) × Bytes)}
    (hi : ∀ i ∈ images, ∃ v, XmlValue (t.conv.imageName i.1 i.2) v) {σ : Style} {ms : List Mark} {is : List Item} (h : DrawsAll f ig images σ ms is)
    (hm : ∀ m ∈ ms, AsciiMark images.length m) {τ : Paint} (hτf : SameColor τ.fill σ.fill) (hτs : SameColor τ.stroke σ.stroke) : ∀ i ∈ is, XmlItem t.conv i := by
  induction h generalizing τ with
  | nil => simp
  | @cons σ m σ' is ms l h1 _ ih =>
    obtain ⟨d1, d⟩ := draws_xml t hf hx hi (hm _ (by simp)) h1 hτf hτs
    have next : ∃ τ' : Paint, SameColor τ'.fill σ'.fill ∧ SameColor τ'.stroke σ'.stroke := by
      cases h1 with
      | @fill r g b c hc => exact ⟨⟨some (r, g, b), τ.stroke⟩, hc, hτs⟩
      | @stroke r g b c hc => exact ⟨⟨τ.fill, some (r, g, b)⟩, hτf, hc⟩
      | width => exact ⟨τ, hτf, hτs⟩
      | rect _ _ => exact ⟨τ, hτf, hτs⟩
      | segment _ _ => exact ⟨τ, hτf, hτs⟩
      | path _ => exact ⟨τ, hτf, hτs⟩
      | image _ _ => exact ⟨τ, hτf, hτs⟩
      | text _ => exact ⟨τ, hτf, hτs⟩
    obtain ⟨τ', m2, m3⟩ := next
    intro i h
    rcases List.mem_append.1 h with h | h
    · exact d1 i h
    · exact ih (fun x hx => hm x (by simp [hx])) m2 m3 i h

/-- **C119.** A written drawing converted to XML: after the first line a well-formed document that can be read in one way, with the pages that are asked for, in order, and on each
page the tags of every mark, with its place and its colours; and the text of the document is the strings. -/
theorem drawing_xml (S : Setup) (h : Furnished S) (opts : Options) (images : List (List (Key × Obj) × Bytes)) (him : ∀ i ∈ images, IsImage i) (pages : List Leaf)
    (hp : ∀ p ∈ pages, ∀ m ∈ p.marks, AsciiMark images.length m) (maxpages : Nat) (hmax : opts.maxpages = maxpages)
    (hne : asked opts.pagenos maxpages pages ≠ []) :
    ∃ f, (∃ k R, buildFont (S.fontEnv R) k helvetica = .ok f) ∧ ∃ N, ∀ fuel ≥ N, ∀ (t : PyTexts) (codec : PyStr), XmlEnv t.conv → XmlFont t.conv f →
      (∀ i ∈ images, ∃ v, XmlValue (t.conv.imageName i.1 i.2) v) →
      ∃ body ev, convertXml t.conv codec S opts fuel (writeDrawing helvetica images pages) = (xHeader codec ++ body, none) ∧
        XmlContent body ev ∧ (∀ ev', XmlContent body ev' → ev' = ev) ∧
        (textIn (pstr "char") false ev).2 = ((asked opts.pagenos maxpages pages).flatMap fun p => (p.marks.flatMap Mark.string).map UInt8.toNat) ∧
        ∃ tags, List.Forall₂ (fun x ts => LeafTags t.conv f opts.ignoreBad images x.2 x.1 ts) (asked opts.pagenos maxpages pages).zipIdx tags ∧
          List.Forall₂ ReadsTag ((pstr "pages", []) :: tags.flatten) (starts ev) := by
  obtain ⟨f, hb, hf, outs, k1, N, k2⟩ := written_drawing S h opts images him pages hp maxpages hmax hne
  refine ⟨f, hb, N, fun fuel hfu t codec henv hxf hi => ?_⟩
  obtain ⟨hdel, -⟩ := k2 fuel hfu
  clear k2
  have hmem : ∀ p ∈ asked opts.pagenos maxpages pages, ∀ m ∈ p.marks, AsciiMark images.length m := fun p hpa m hm => hp p (mem_asked hpa) m hm
  generalize asked opts.pagenos maxpages pages = leaves at k1 hmem ⊢
  have s0 : SameColor none ⟨none, []⟩ := rfl
  have hitems : ∀ p ∈ pagesWith 0 outs, ∀ i ∈ p.items, XmlItem t.conv i := by
    clear hdel
    generalize 0 = num
    induction k1 generalizing num with
    | nil => intro p hp; cases hp
    | @cons p out l os ho _ ih =>
      intro q hq
      obtain ⟨items, rfl, hd⟩ := ho
      rcases List.mem_cons.1 hq with rfl | hq
      · exact drawsAll_xmlItem t hf hxf hi hd (hmem p (by simp)) (τ := ⟨none, none⟩) s0 s0
      · exact ih (fun x hx => hmem x (List.mem_cons_of_mem _ hx)) _ q hq
  have hshow : List.Forall₂ Spec.PageShows (pagesWith 0 outs) (leaves.map fun p => (p.marks.flatMap Mark.string).map UInt8.toNat) := by
    clear hdel hitems
    generalize 0 = num
    induction k1 generalizing num with
    | nil => exact .nil
    | @cons p out l os ho _ ih =>
      obtain ⟨items, rfl, hd⟩ := ho
      exact .cons (drawsAll_shows hf hd (hmem p (by simp))) (ih (fun x hx => hmem x (List.mem_cons_of_mem _ hx)) _)
  obtain ⟨body, ev, h1, h2, h3, h4, tags, h5, h6⟩ := xml_document_partial t.conv henv codec _ hitems _ hshow
  refine ⟨body, ev, ?_, h2, h3, by rw [h4, List.flatMap_def], tags, ?_, h6⟩
  · unfold convertXml
    rw [hdel, ← h1]
  clear hdel h1 h2 h3 h4 h6 hitems hshow
  generalize 0 = num at h5 ⊢
  induction k1 generalizing num tags with
  | nil => cases h5; exact .nil
  | @cons p out l os ho _ ih =>
    cases h5 with
    | @cons _ j _ js hj hr =>
      rw [List.zipIdx_cons]
      refine .cons ?_ (ih (fun x hx => hmem x (List.mem_cons_of_mem _ hx)) _ _ hr)
      obtain ⟨items, rfl, hd⟩ := ho
      obtain ⟨ts, c1, rfl⟩ := hj
      exact ⟨_, drawsAll_xml t hf hxf hi hd (hmem p (by simp)) (τ := ⟨none, none⟩) s0 s0 c1, rfl⟩

/-! The hypotheses can be met. -/

theorem reads_names {a b : List Tag} (h : List.Forall₂ ReadsTag a b) : b.map Prod.fst = a.map Prod.fst := by
  induction h with
  | nil => rfl
  | cons h _ ih => rw [List.map_cons, List.map_cons, ih, h.1]

theorem posterTexts_xml : XmlEnv posterTexts.conv := ⟨fun _ => ⟨_, plain_value (pstr "0") (by decide)⟩⟩

theorem posterTexts_font (f : Font) : XmlFont posterTexts.conv f := by
  have e : posterTexts.conv.descriptor f = [(pstr "FontName", pstr "Helvetica")] := rfl
  have e' : posterTexts.conv.attrName (pstr "FontName") = pstr "font-name" := by
    show snakeCase (pstr "FontName") = _
    decide +kernel
  refine ⟨?_, ?_, ?_⟩ <;> rw [e]
  · intro p hp
    rw [List.mem_singleton.1 hp, e']
    exact ⟨xmlName_dec (by decide +kernel), _, plain_value (pstr "Helvetica") (by decide)⟩
  · simp
  · intro p hp
    rw [List.mem_singleton.1 hp, e']
    decide +kernel

/-- The poster in XML: the tags of one page with a rectangle, a line, a picture and a string of three characters; the rectangle is filled with a colour, and has none for
lines; and the text is the string. -/
example : ∃ N, ∀ fuel ≥ N, ∃ body ev pages page rect rest, convertXml posterTexts.conv (pstr "utf-8") sampleSetup {} fuel (writeDrawing helvetica [sampleGray] [samplePoster]) =
      (xHeader (pstr "utf-8") ++ body, none) ∧ XmlContent body ev ∧ (textIn (pstr "char") false ev).2 = pstr "Hi!" ∧
      starts ev = (pstr "pages", pages) :: (pstr "page", page) :: (pstr "rect", rect) :: rest ∧
      rest.map Prod.fst = [pstr "line", pstr "img", pstr "text-block", pstr "char-block", pstr "char", pstr "char", pstr "char"] ∧
      (rect.map Prod.fst).Perm [pstr "x0", pstr "y0", pstr "x1", pstr "y1", pstr "fill-type", pstr "fill-values"] := by
  have ha : asked ({} : Options).pagenos 0 [samplePoster] = [samplePoster] := by simp [asked, Spec.Wanted]
  obtain ⟨f, _, N, k⟩ := drawing_xml sampleSetup sample_furnished {} [sampleGray] (by intro i hi; rw [List.mem_singleton.1 hi]; exact sampleGray_image) [samplePoster]
    (by
      intro p hp m hm
      rw [List.mem_singleton.1 hp] at hm
      simp only [samplePoster, List.mem_cons, List.not_mem_nil, or_false] at hm
      rcases hm with rfl | rfl | rfl | rfl | rfl | rfl
      · trivial
      · trivial
      · trivial
      · trivial
      · exact Nat.zero_lt_one
      · exact ⟨by decide, by decide⟩) 0 rfl (by rw [ha]; simp)
  refine ⟨N, fun fuel hf => ?_⟩
  obtain ⟨body, ev, h1, h2, -, h3, tags, h4, h5⟩ := k fuel hf posterTexts (pstr "utf-8") posterTexts_xml (posterTexts_font f)
    (fun i _ => ⟨_, by rw [posterTexts_image]; exact plain_value (pstr "img") (by decide)⟩)
  rw [ha] at h3 h4
  have h3 : (textIn (pstr "char") false ev).2 = pstr "Hi!" := by rw [h3]; decide +kernel
  cases h4 with
  | cons hl hn =>
  cases hn
  obtain ⟨l, l1, rfl⟩ := hl
  simp only [samplePoster] at l1
  cases l1 with
  | cons d1 l1 =>
  cases d1
  cases l1 with
  | cons d2 l1 =>
  cases d2
  cases l1 with
  | cons d3 l1 =>
  cases d3 with
  | rect s1 =>
  obtain ⟨b, s, q, -, g1, g2, rfl⟩ := s1
  cases g1
  cases g2
  cases l1 with
  | cons d4 l1 =>
  cases d4 with
  | line s2 =>
  obtain ⟨b2, s2, q2, -, -, -, rfl⟩ := s2
  cases l1 with
  | cons d5 l1 =>
  cases d5 with
  | image hg _ =>
  cases l1 with
  | cons d6 l1 =>
  cases d6 with
  | text _ _ _ d6 =>
  cases l1
  have e : (asc "Hi!").map (fun c => (c.toNat : Int)) = [72, 105, 33] := by decide +kernel
  rw [e] at d6
  cases d6 with
  | cons _ _ _ _ _ d6 =>
  cases d6 with
  | cons _ _ _ _ _ d6 =>
  cases d6 with
  | cons _ _ _ _ _ d6 =>
  cases d6
  generalize hs : starts ev = tags at h5
  cases h5 with
  | @cons _ t1 _ _ r1 h5 =>
  cases h5 with
  | @cons _ t2 _ _ r2 h5 =>
  cases h5 with
  | @cons _ t3 _ rest r3 h5 =>
  obtain ⟨n1, a1⟩ := t1
  obtain ⟨n2, a2⟩ := t2
  obtain ⟨n3, a3⟩ := t3
  obtain ⟨e1, -⟩ := r1
  obtain ⟨e2, -⟩ := r2
  obtain ⟨e3, as, p3, w3⟩ := r3
  cases e1
  cases e2
  cases e3
  refine ⟨body, ev, a1, a2, a3, rest, h1, h2, h3, hs, reads_names h5, ?_⟩
  rw [writesAttrs_keys w3]
  have g1 : pstr "fill" ++ pstr "-type" = pstr "fill-type" := by decide +kernel
  have g2 : pstr "fill" ++ pstr "-values" = pstr "fill-values" := by decide +kernel
  rw [g1, g2] at p3
  exact p3.map Prod.fst

end Pdf

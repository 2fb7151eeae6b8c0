import Verif.Props.DrawingFile
import Verif.Props.Dumps
import Verif.Spec.DrawingJson
/-! Written drawings in JSON (C118). -/

namespace Pdf
open Spec (Style Mark Leaf LeafOut Draws DrawsAll Dec Paint InColor Around InRange ShapeJson MarkJson MarksJson LeafJson JsonFont JsonItem ItemJson PageJson
  Json Clean spot HasColor HasBox AsciiMark IsImage asked JsonText CleanMark ValueText ColorIs pathJson1 corners StringBlock Furnished helvetica writeDrawing)

/-- The colours of a page are those of the delivered items. -/
def SameColor (c : Option (Dec × Dec × Dec)) (d : Color) : Prop :=
  match c with
  | none => d = ⟨none, []⟩
  | some (r, g, b) => Spec.Rgb r g b d

theorem painted_of (t : PyTexts) {key : PyStr} {c : Option (Dec × Dec × Dec)} {d : Color} (h : SameColor c d) {j : Json} (hj : HasColor t.conv key d j) :
    InColor t.conv.fmt key c j := by
  obtain ⟨h1, h2⟩ := color_field t hj
  constructor
  · rintro rfl
    exact h1 (by rw [show d = ⟨none, []⟩ from h])
  · rintro r g b rfl
    obtain ⟨x, y, z, rfl, n1, n2, n3⟩ : Spec.Rgb r g b d := h
    obtain ⟨v, v1, v2⟩ := h2 _ rfl
    refine ⟨v, [valueName t (.int x), valueName t (.int y), valueName t (.int z)], v1, ?_, x, y, z, n1, n2, n3, ?_⟩
    · have e : (asc "DeviceRGB").map UInt8.toNat = pstr "DeviceRGB" := by decide
      rw [← e]
      exact v2
    · exact .cons (valueName_text t trivial) (.cons (valueName_text t trivial) (.cons (valueName_text t trivial) .nil))

theorem shape_of (t : PyTexts) {c : Curve} {j : Json} (h : Spec.CurveJson t.conv c j) {σ : Paint} (hf : SameColor σ.fill c.fill) (hs : SameColor σ.stroke c.stroke)
    {type : String} (ht : Spec.kindName c.kind = pstr type) : ShapeJson t.conv type σ j :=
  ⟨by rw [h.type, ht], painted_of t hf h.fill, painted_of t hs h.stroke⟩

theorem block_clean {f : Font} (hf : HelveticaFont f) {ig : Bool} {σ : Style} {size x y : Dec} {s : Bytes} {b : CharBlock} (h : StringBlock f ig σ size x y s b)
    (ha : ∀ c ∈ s, 32 ≤ c.toNat ∧ c.toNat < 127) (hc : '\\'.toNat ∉ s.map UInt8.toNat) : (b.chars.map Prod.fst).flatten = s.map UInt8.toNat ∧ ∀ c ∈ b.chars, Clean c.1 := by
  have e := helvetica_text hf ha h.text
  refine ⟨e, fun c hcb x hx => ?_⟩
  have hm : x ∈ (b.chars.map Prod.fst).flatten := List.mem_flatten.2 ⟨c.1, List.mem_map.2 ⟨c, hcb, rfl⟩, hx⟩
  rw [e] at hm
  refine ⟨?_, fun hb => hc (hb ▸ hm)⟩
  obtain ⟨u, hu, rfl⟩ := List.mem_map.1 hm
  exact (ha u hu).1

/-- Delivered marks can be written in JSON. -/
theorem draws_item (t : PyTexts) {f : Font} (hf : HelveticaFont f) (hj : JsonFont t.conv f) {ig : Bool} {images : List (List (Key × Obj) × Bytes)}
    (hi : ∀ i ∈ images, Clean (t.conv.imageName i.1 i.2)) {σ σ' : Style} {m : Mark} {is : List Item} (hm : AsciiMark images.length m) (hc : CleanMark m)
    (h : Draws f ig images σ m σ' is) : ∀ i ∈ is, JsonItem t.conv i := by
  cases h with
  | fill _ => simp
  | stroke _ => simp
  | width => simp
  | rect _ _ => intro i h; rw [List.mem_singleton.1 h]; exact .curve
  | segment _ _ => intro i h; rw [List.mem_singleton.1 h]; exact .curve
  | path _ => intro i h; rw [List.mem_singleton.1 h]; exact .curve
  | image hg _ => intro i h; rw [List.mem_singleton.1 h]; exact .image (hi _ (List.mem_of_getElem? hg))
  | text hb =>
    intro i h
    rw [List.mem_singleton.1 h]
    refine .text rfl fun cb hcb => ?_
    rw [List.mem_singleton.1 hcb]
    exact ⟨(block_clean hf hb hm.2 hc).2, by rw [hb.font]; exact hj.keys, by rw [hb.font]; exact hj.fresh⟩

theorem drawsAll_item (t : PyTexts) {f : Font} (hf : HelveticaFont f) (hj : JsonFont t.conv f) {ig : Bool} {images : List (List (Key × Obj) × Bytes)}
    (hi : ∀ i ∈ images, Clean (t.conv.imageName i.1 i.2)) {σ : Style} {ms : List Mark} {is : List Item} (h : DrawsAll f ig images σ ms is)
    (hm : ∀ m ∈ ms, AsciiMark images.length m ∧ CleanMark m) : ∀ i ∈ is, JsonItem t.conv i := by
  induction h with
  | nil => simp
  | cons h1 _ ih =>
    intro i h
    rcases List.mem_append.1 h with h | h
    · exact draws_item t hf hj hi (hm _ (by simp)).1 (hm _ (by simp)).2 h1 i h
    · exact ih (fun x hx => hm x (by simp [hx])) i h

theorem move_path {fmt : ℚ → PyStr} {name : String} {m : CurveMethod} (hn : Spec.methodText m = name) {p : Spec.Pt} {v : Json}
    (h : Spec.PathIs fmt ⟨m, [(some p.1.val, some p.2.val)]⟩ v) : v = pathJson1 fmt name p := by
  subst hn
  exact h

/-- The objects of delivered marks. -/
theorem draws_json (t : PyTexts) (ht : ∀ q, Spec.Number (t.fmt q)) {f : Font} (hf : HelveticaFont f) {ig : Bool} {images : List (List (Key × Obj) × Bytes)}
    {σ σ' : Style} {m : Mark} {is : List Item} (hm : AsciiMark images.length m) (h : Draws f ig images σ m σ' is) {τ : Paint} (hτf : SameColor τ.fill σ.fill)
    (hτs : SameColor τ.stroke σ.stroke) {js : List Json} (hj : List.Forall₂ (ItemJson t.conv) is js) :
    ∃ τ', MarkJson t.conv f images τ m τ' js ∧ SameColor τ'.fill σ'.fill ∧ SameColor τ'.stroke σ'.stroke := by
  cases h with
  | fill hc => cases hj; exact ⟨_, .fill, hc, hτs⟩
  | stroke hc => cases hj; exact ⟨_, .stroke, hτf, hc⟩
  | width => cases hj; exact ⟨_, .width, hτf, hτs⟩
  | rect hq hb =>
    cases hj with
    | cons hi hn =>
      cases hn
      cases hi with
      | curve hc => exact ⟨_, .rect (shape_of t hc hτf hτs rfl) ⟨_, hb, hc.box⟩, hτf, hτs⟩
  | segment hk hb =>
    cases hj with
    | cons hi hn =>
      cases hn
      cases hi with
      | curve hc => exact ⟨_, .line (shape_of t hc hτf hτs (by cases hk <;> rfl)) ⟨_, hb, hc.box⟩, hτf, hτs⟩
  | @path p q r more b hb =>
    cases hj with
    | cons hi hn =>
      cases hn
      cases hi with
      | curve hc =>
        refine ⟨_, .path (shape_of t hc hτf hτs rfl) (fun hr => ⟨_, hb (fun v hv => hr _ (List.mem_map_of_mem hv)), hc.box⟩) ?_, hτf, hτs⟩
        obtain ⟨l, l1, l2⟩ := paths_field t ht hc rfl
        rw [l1]
        congr 2
        clear l1
        cases l2 with
        | cons h1 h2 =>
          rw [move_path rfl h1]
          congr 1
          generalize q :: r :: more = pts at h2
          rename_i l'
          induction pts generalizing l' with
          | nil => cases h2; rfl
          | cons p pts ih =>
            cases h2 with
            | cons h3 h4 => rw [List.map_cons, ← ih h4, move_path (name := "LINE_TO") rfl h3]; rfl
  | image hg hb =>
    cases hj with
    | cons hi hn =>
      cases hn
      cases hi with
      | image h1 h2 h3 => exact ⟨_, .image hg h1 h2 (fun hr => ⟨_, hb (fun v hv => hr _ (List.mem_map_of_mem hv)), h3⟩), hτf, hτs⟩
  | @text _ _ _ s b hb =>
    cases hj with
    | cons hi hn =>
      cases hn
      cases hi with
      | text h1 h2 h3 h4 h5 =>
        cases h5 with
        | cons h6 h7 =>
          cases h7
          cases h1
          obtain ⟨codes, c1, c2⟩ := hb.places hf.upright
          rw [hf.decode] at c1
          cases c1
          refine ⟨_, .text h2 h4 ?_ (painted_of t (by rw [hb.color]; exact hτf) h6.color) (fun p hp hl => h6.descriptor p (by rw [hb.font]; exact hp) hl)
            ⟨_, _, c2, hb.extent⟩ h3 h6.box (by rw [← hb.height hf.upright]; exact h6.size), hτf, hτs⟩
          rw [h6.text, helvetica_text hf hm.2 hb.text]

theorem forall2_split {α β : Type} {R : α → β → Prop} : ∀ {a b : List α} {c : List β}, List.Forall₂ R (a ++ b) c → ∃ x y, List.Forall₂ R a x ∧ List.Forall₂ R b y ∧ c = x ++ y
  | [], _, c, h => ⟨[], c, .nil, h, rfl⟩
  | _ :: _, _, _, .cons h1 h2 => by
    obtain ⟨x, y, hx, hy, rfl⟩ := forall2_split h2
    exact ⟨_ :: x, y, .cons h1 hx, hy, rfl⟩

theorem drawsAll_json (t : PyTexts) (ht : ∀ q, Spec.Number (t.fmt q)) {f : Font} (hf : HelveticaFont f) {ig : Bool} {images : List (List (Key × Obj) × Bytes)}
    {σ : Style} {ms : List Mark} {is : List Item} (h : DrawsAll f ig images σ ms is) (hm : ∀ m ∈ ms, AsciiMark images.length m) {τ : Paint}
    (hτf : SameColor τ.fill σ.fill) (hτs : SameColor τ.stroke σ.stroke) {js : List Json} (hj : List.Forall₂ (ItemJson t.conv) is js) :
    MarksJson t.conv f images τ ms js := by
  induction h generalizing τ js with
  | nil => cases hj; exact .nil
  | @cons σ m σ' is ms l h1 _ ih =>
    obtain ⟨j1, j2, k1, k2, rfl⟩ := forall2_split hj
    obtain ⟨τ', m1, m2, m3⟩ := draws_json t ht hf (hm _ (by simp)) h1 hτf hτs k1
    exact .cons m1 (ih (fun x hx => hm x (by simp [hx])) m2 m3 k2)

/-- **C118.** A written drawing converted to JSON: a valid document with the pages that are asked for, in order, and on each page an object for every
mark, with its place and its colours. -/
theorem drawing_json (S : Setup) (h : Furnished S) (opts : Options) (images : List (List (Key × Obj) × Bytes)) (him : ∀ i ∈ images, IsImage i) (pages : List Leaf)
    (hp : ∀ p ∈ pages, ∀ m ∈ p.marks, AsciiMark images.length m) (hc : ∀ p ∈ pages, ∀ m ∈ p.marks, CleanMark m) (maxpages : Nat)
    (hmax : opts.maxpages = maxpages) (hne : asked opts.pagenos maxpages pages ≠ []) :
    ∃ f, (∃ k R, buildFont (S.fontEnv R) k helvetica = .ok f) ∧ ∃ N, ∀ fuel ≥ N, ∀ t : PyTexts, (∀ q, Spec.Number (t.fmt q)) → JsonFont t.conv f →
      (∀ i ∈ images, Clean (t.conv.imageName i.1 i.2)) →
      ∃ file js, convertJson t.conv S opts fuel (writeDrawing helvetica images pages) = (file, none) ∧ JsonText file (.obj [(pstr "pages", .arr js)]) ∧
        List.Forall₂ (fun x j => LeafJson t.conv f images x.2 x.1 j) (asked opts.pagenos maxpages pages).zipIdx js := by
  obtain ⟨f, hb, hf, outs, k1, N, k2⟩ := written_drawing S h opts images him pages hp maxpages hmax hne
  refine ⟨f, hb, N, fun fuel hfu t ht hjf hi => ?_⟩
  obtain ⟨-, hconv⟩ := k2 fuel hfu
  clear k2
  have hmem : ∀ p ∈ asked opts.pagenos maxpages pages, ∀ m ∈ p.marks, AsciiMark images.length m ∧ CleanMark m :=
    fun p hpa m hm => ⟨hp p (mem_asked hpa) m hm, hc p (mem_asked hpa) m hm⟩
  generalize asked opts.pagenos maxpages pages = leaves at k1 hmem ⊢
  have hitems : ∀ p ∈ pagesWith 0 outs, ∀ i ∈ p.items, JsonItem t.conv i := by
    clear hconv
    generalize 0 = num
    induction k1 generalizing num with
    | nil => intro p hp; cases hp
    | @cons p out l os ho _ ih =>
      intro q hq
      obtain ⟨items, rfl, hd⟩ := ho
      rcases List.mem_cons.1 hq with rfl | hq
      · exact drawsAll_item t hf hjf hi hd (hmem p (by simp))
      · exact ih (fun x hx => hmem x (List.mem_cons_of_mem _ hx)) _ q hq
  obtain ⟨file, js, h1, h2, h3, -⟩ := hconv.json t.conv (conv_json t ht) hitems
  refine ⟨file, js, h1, h2, ?_⟩
  clear hconv h1 h2 hitems
  generalize 0 = num at h3 ⊢
  induction k1 generalizing num js with
  | nil => cases h3; exact .nil
  | @cons p out l os ho _ ih =>
    cases h3 with
    | @cons _ j _ js hj hr =>
      rw [List.zipIdx_cons]
      refine .cons ?_ (ih (fun x hx => hmem x (List.mem_cons_of_mem _ hx)) _ _ hr)
      obtain ⟨items, rfl, hd⟩ := ho
      obtain ⟨cs, c1, c2⟩ := hj.children
      exact ⟨hj.id, hj.width, hj.height, cs, c1, drawsAll_json t ht hf hd (fun m hm => (hmem p (by simp) m hm).1) (show SameColor none ⟨none, []⟩ from rfl) (show SameColor none ⟨none, []⟩ from rfl) c2⟩

/-! The hypotheses can be met. -/

/-- Texts for the example: all numbers are written as `0`. -/
def posterTexts : PyTexts where
  fmt := fun _ => pstr "0"
  descriptor := fun _ => [(pstr "FontName", pstr "Helvetica")]
  imageName := fun _ _ => pstr "img"
  other := fun _ => pstr "None"

theorem posterTexts_image (d : List (Key × Obj)) (raw : Bytes) : posterTexts.conv.imageName d raw = pstr "img" := by
  show encNone (pstr "img") = pstr "img"
  decide +kernel

/-- The poster in JSON: one page with a rectangle in orange, a line, a picture and a string in the same colour, in the font Helvetica. -/
example : ∃ N, ∀ fuel ≥ N, ∃ file page rect line img text block, convertJson posterTexts.conv sampleSetup {} fuel (writeDrawing helvetica [sampleGray] [samplePoster]) = (file, none) ∧
    JsonText file (.obj [(pstr "pages", .arr [page])]) ∧ page.field (pstr "children") = some (.arr [rect, line, img, text]) ∧
    rect.field (pstr "type") = some (.str (pstr "rect")) ∧ rect.field (pstr "stroke") = none ∧
    (∃ v, rect.field (pstr "fill") = some v ∧ ∃ r g b, ColorIs (pstr "DeviceRGB") [r, g, b] v) ∧ line.field (pstr "type") = some (.str (pstr "line")) ∧
    img.field (pstr "src") = some (.str (pstr "img")) ∧ text.field (pstr "char_blocks") = some (.arr [block]) ∧
    block.field (pstr "text") = some (.str (pstr "Hi!")) ∧ block.field (pstr "FontName") = some (.str (pstr "Helvetica")) := by
  have ha : asked ({} : Options).pagenos 0 [samplePoster] = [samplePoster] := by simp [asked, Spec.Wanted]
  obtain ⟨f, _, N, k⟩ := drawing_json sampleSetup sample_furnished {} [sampleGray] (by intro i hi; rw [List.mem_singleton.1 hi]; exact sampleGray_image) [samplePoster]
    (by
      intro p hp m hm
      rw [List.mem_singleton.1 hp] at hm
      simp only [samplePoster, List.mem_cons, List.not_mem_nil, or_false] at hm
      rcases hm with rfl | rfl | rfl | rfl | rfl | rfl
      · trivial
      · trivial
      · trivial
      · trivial
      · exact Nat.zero_lt_one
      · exact ⟨by decide, by decide⟩)
    (by
      intro p hp m hm
      rw [List.mem_singleton.1 hp] at hm
      simp only [samplePoster, List.mem_cons, List.not_mem_nil, or_false] at hm
      rcases hm with rfl | rfl | rfl | rfl | rfl | rfl
      · trivial
      · trivial
      · trivial
      · trivial
      · trivial
      · show '\\'.toNat ∉ (asc "Hi!").map UInt8.toNat
        decide +kernel) 0 rfl (by rw [ha]; simp)
  refine ⟨N, fun fuel hf => ?_⟩
  have hfont : posterTexts.conv.descriptor f = [(pstr "FontName", pstr "Helvetica")] := rfl
  obtain ⟨file, js, h1, h2, h3⟩ := k fuel hf posterTexts
    (fun _ => ⟨[], pstr "0", [], [], rfl, .inl rfl, ⟨⟨by decide, by decide⟩, .inl rfl⟩, .inl rfl, .inl rfl⟩)
    ⟨by rw [hfont]; simp, by rw [hfont]; intro p hp; rw [List.mem_singleton.1 hp]; exact ⟨by decide, by unfold Clean; decide, by decide, by unfold Clean; decide⟩⟩
    (fun i _ => by rw [posterTexts_image]; unfold Clean; decide)
  rw [ha] at h3
  cases h3 with
  | cons hl hn =>
  cases hn
  obtain ⟨l, l1, l2⟩ := hl.marks
  simp only [samplePoster] at l2
  cases l2 with
  | cons d1 l2 =>
  cases d1
  cases l2 with
  | cons d2 l2 =>
  cases d2
  cases l2 with
  | cons d3 l2 =>
  cases d3 with
  | rect s1 _ =>
  cases l2 with
  | cons d4 l2 =>
  cases d4 with
  | line s2 _ =>
  cases l2 with
  | cons d5 l2 =>
  cases d5 with
  | image hg _ i2 _ =>
  cases l2 with
  | cons d6 l2 =>
  cases d6 with
  | text _ t2 t3 _ t5 _ _ _ _ =>
  cases l2
  cases hg
  obtain ⟨v, texts, v1, v2, x, y, z, -, -, -, v3⟩ := s1.fill.2 _ _ _ rfl
  refine ⟨file, _, _, _, _, _, _, h1, h2, l1, s1.type, s1.stroke.1 rfl, ⟨v, v1, ?_⟩, s2.type, ?_, t2, ?_, ?_⟩
  · cases v3 with
    | cons _ v3 =>
    cases v3 with
    | cons _ v3 =>
    cases v3 with
    | cons _ v3 =>
    cases v3
    exact ⟨_, _, _, v2⟩
  · rw [i2, posterTexts_image]
  · rw [t3, show (asc "Hi!").map UInt8.toNat = pstr "Hi!" by decide +kernel]
  · refine t5 (pstr "FontName", pstr "Helvetica") (by rw [hfont]; simp) ?_
    unfold Spec.leftOut
    decide +kernel

end Pdf

import Verif.Props.DrawingXml
import Verif.Spec.DrawingYaml
/-! Written drawings in YAML (C120). -/

namespace Pdf
open Spec (Style Mark Leaf LeafOut Draws DrawsAll Dec Paint InRange YamlFont YamlItem YamlTexts YamlColor YamlText YamlScalar Yaml ItemYaml PageYaml BlockYaml asSeq textYaml
  ColorMembers ShapeYaml MarkYaml MarksYaml LeafYaml PlainMark pathYaml1 boxYaml colorYaml pathYaml spot AsciiMark IsImage asked ValueText corners StringBlock
  Furnished helvetica writeDrawing)

/-- The member of a colour of the page. -/
theorem rgb_members (t : PyTexts) (key : PyStr) {c : Option (Dec × Dec × Dec)} {d : Color} (h : SameColor c d) : ColorMembers t.fmt key c (colorYaml t.yaml key d) := by
  match c, h with
  | none, h => rw [show d = ⟨none, []⟩ from h]; exact .none
  | some (r, g, b), h =>
    obtain ⟨x, y, z, rfl, n1, n2, n3⟩ : Spec.Rgb r g b d := h
    have e1 : spaceText ⟨asc "DeviceRGB", .int 3⟩ = pstr "DeviceRGB" := by decide +kernel
    have : colorYaml t.yaml key ⟨some ⟨asc "DeviceRGB", .int 3⟩, [.int x, .int y, .int z]⟩ =
        [(key, .map [(pstr "type", .scalar (pstr "DeviceRGB")), (pstr "value", .seq [.scalar (valueName t (.int x)), .scalar (valueName t (.int y)), .scalar (valueName t (.int z))])])] := by
      show [(key, Yaml.map [(pstr "type", .scalar (spaceText ⟨asc "DeviceRGB", .int 3⟩)), (pstr "value", .seq [.scalar (encText (intDigits x)), .scalar (encText (intDigits y)), .scalar (encText (intDigits z))])])] = _
      rw [e1, integer_plain, integer_plain, integer_plain]
      rfl
    rw [this]
    exact .some n1 n2 n3 (valueName_text t trivial) (valueName_text t trivial) (valueName_text t trivial)

theorem rgb_yaml (t : PyTexts) {c : Option (Dec × Dec × Dec)} {d : Color} (h : SameColor c d) : YamlColor t.yaml d := by
  match c, h with
  | none, h => rw [show d = ⟨none, []⟩ from h]; exact fun _ h => nomatch h
  | some (r, g, b), h =>
    obtain ⟨x, y, z, rfl, -, -, -⟩ : Spec.Rgb r g b d := h
    refine (colors_yaml t (fun cs e => ?_) fun v hv => ?_).1
    · cases e
      refine ⟨'D'.toNat, pstr "eviceRGB", by decide +kernel, by unfold Spec.Capital Spec.Small; decide, ?_⟩
      unfold Spec.Capital Spec.Small Spec.Numeral
      decide +kernel
    · have hd : ∀ m, ∀ c ∈ numText m, Spec.Numeral c := by
        intro m c hc
        obtain ⟨d, h, rfl⟩ := List.mem_map.1 hc
        exact (decimal_facts m).2.1 d h
      have key : ∀ n, ∀ c ∈ intDigits n, Spec.Numeral c ∨ c = '-'.toNat := by
        intro n c hc
        unfold intDigits at hc
        split at hc
        · rcases List.mem_cons.1 hc with rfl | hc
          · exact .inr rfl
          · exact .inl (hd _ c hc)
        · exact .inl (hd _ c hc)
      simp only [List.mem_cons, List.not_mem_nil, or_false] at hv
      intro a ha
      rcases hv with rfl | rfl | rfl <;> rcases key _ a ha with h | h <;> tauto

/-- Delivered marks can be written in YAML, and their mappings. -/
theorem draws_yaml (t : PyTexts) {f : Font} (hf : HelveticaFont f) (hx : YamlFont t.yaml f) {ig : Bool} {images : List (List (Key × Obj) × Bytes)}
    (hi : ∀ i ∈ images, ∃ v, YamlScalar (t.yaml.imageName i.1 i.2) v) {σ σ' : Style} {m : Mark} {is : List Item} (hm : AsciiMark images.length m) (hpl : PlainMark m)
    (h : Draws f ig images σ m σ' is) {τ : Paint} (hτf : SameColor τ.fill σ.fill) (hτs : SameColor τ.stroke σ.stroke) :
    (∀ i ∈ is, YamlItem t.yaml i) ∧ ∃ τ' : Paint, SameColor τ'.fill σ'.fill ∧ SameColor τ'.stroke σ'.stroke ∧
      ∀ ts, List.Forall₂ (ItemYaml t.yaml) is ts → MarkYaml t.yaml f images τ m τ' ts := by
  cases h with
  | @fill r g b c hc => exact ⟨by simp, ⟨some (r, g, b), τ.stroke⟩, hc, hτs, fun ts h => by cases h; exact .fill⟩
  | @stroke r g b c hc => exact ⟨by simp, ⟨τ.fill, some (r, g, b)⟩, hτf, hc, fun ts h => by cases h; exact .stroke⟩
  | width => exact ⟨by simp, τ, hτf, hτs, fun ts h => by cases h; exact .width⟩
  | rect hq hb =>
    refine ⟨fun i h => by rw [List.mem_singleton.1 h]; exact .curve (rgb_yaml t hτf) (rgb_yaml t hτs), τ, hτf, hτs, fun ts h => ?_⟩
    cases h with
    | cons h1 hn =>
      cases hn
      cases h1
      exact .rect ⟨_, _, _, fun _ => hb, rgb_members t _ hτf, rgb_members t _ hτs, rfl⟩
  | segment hk hb =>
    refine ⟨fun i h => by rw [List.mem_singleton.1 h]; exact .curve (rgb_yaml t hτf) (rgb_yaml t hτs), τ, hτf, hτs, fun ts h => ?_⟩
    cases h with
    | cons h1 hn =>
      cases hn
      cases h1
      cases hk <;> exact .line ⟨_, _, _, fun _ => hb, rgb_members t _ hτf, rgb_members t _ hτs, rfl⟩
  | @path p q r more b hb =>
    refine ⟨fun i h => by rw [List.mem_singleton.1 h]; exact .curve (rgb_yaml t hτf) (rgb_yaml t hτs), τ, hτf, hτs, fun ts h => ?_⟩
    cases h with
    | cons h1 hn =>
      cases hn
      cases h1
      refine .path ⟨b, _, _, fun hr => hb fun v hv => hr _ (List.mem_map_of_mem hv), rgb_members t _ hτf, rgb_members t _ hτs, ?_⟩
      dsimp only
      rw [if_pos rfl, List.map_cons (f := pathYaml t.yaml), List.map_map]
      rfl
  | image hg hb =>
    refine ⟨fun i h => ?_, τ, hτf, hτs, fun ts h => ?_⟩
    · rw [List.mem_singleton.1 h]
      obtain ⟨v, hv⟩ := hi _ (List.mem_of_getElem? hg)
      exact .image hv
    cases h with
    | cons h1 hn =>
      cases hn
      cases h1 with
      | image hv => exact .image hg hv fun hr => hb fun v hv => hr _ (List.mem_map_of_mem hv)
  | @text size x y s b hb =>
    have hs := helvetica_text hf hm.2 hb.text
    refine ⟨fun i h => ?_, τ, hτf, hτs, fun ts h => ?_⟩
    · rw [List.mem_singleton.1 h]
      refine .text fun cb hcb => ?_
      rw [List.mem_singleton.1 hcb]
      refine ⟨?_, by rw [hb.color]; exact rgb_yaml t hτf, by rw [hb.font]; exact hx.keys, by rw [hb.font]; exact hx.fresh, by rw [hb.font]; exact hx.values⟩
      rw [hs]
      rcases (show s = [] ∨ Spec.Plain (s.map UInt8.toNat) from hpl) with rfl | hpl
      · exact .inl rfl
      · exact .inr hpl
    · cases h with
      | cons h1 hn =>
        cases hn
        cases h1 with
        | text h2 =>
          cases h2 with
          | cons h2 hn =>
            cases hn
            cases h2 with
            | mk hd =>
              rw [hs]
              obtain ⟨codes, c1, c2⟩ := hb.places hf.upright
              rw [hf.decode] at c1
              cases c1
              rw [hb.height hf.upright]
              refine .text (box := b.bbox) (rgb_members t (pstr "color") (show SameColor τ.fill b.color by rw [hb.color]; exact hτf)) ⟨_, _, c2, hb.extent⟩ (fun p hp hl => ?_)
              · have : ∀ {ps : List (PyStr × PyStr)} {ds : List (PyStr × Yaml)}, List.Forall₂ (fun p m => m.1 = p.1 ∧ YamlScalar p.2 m.2) ps ds → p ∈ ps →
                    ∃ v, YamlScalar p.2 v ∧ (p.1, v) ∈ ds := by
                  intro ps ds h hp
                  induction h with
                  | nil => cases hp
                  | @cons a m _ _ h _ ih =>
                    rcases List.mem_cons.1 hp with rfl | hp
                    · exact ⟨m.2, h.2, by rw [← h.1]; exact List.mem_cons_self⟩
                    · obtain ⟨v, v1, v2⟩ := ih hp
                      exact ⟨v, v1, List.mem_cons_of_mem _ v2⟩
                obtain ⟨v, v1, v2⟩ := this hd (List.mem_filter.2 ⟨by rw [hb.font]; exact hp, by simpa using hl⟩)
                exact ⟨v, v1, v2⟩

theorem drawsAll_yaml (t : PyTexts) {f : Font} (hf : HelveticaFont f) (hx : YamlFont t.yaml f) {ig : Bool} {images : List (List (Key × Obj) × Bytes)}
    (hi : ∀ i ∈ images, ∃ v, YamlScalar (t.yaml.imageName i.1 i.2) v) {σ : Style} {ms : List Mark} {is : List Item} (h : DrawsAll f ig images σ ms is)
    (hm : ∀ m ∈ ms, AsciiMark images.length m ∧ PlainMark m) {τ : Paint} (hτf : SameColor τ.fill σ.fill) (hτs : SameColor τ.stroke σ.stroke) :
    (∀ i ∈ is, YamlItem t.yaml i) ∧ ∀ ts, List.Forall₂ (ItemYaml t.yaml) is ts → MarksYaml t.yaml f images τ ms ts := by
  induction h generalizing τ with
  | nil => exact ⟨by simp, fun ts h => by cases h; exact .nil⟩
  | @cons σ m σ' is ms l h1 _ ih =>
    obtain ⟨d1, τ', m2, m3, d⟩ := draws_yaml t hf hx hi (hm _ (by simp)).1 (hm _ (by simp)).2 h1 hτf hτs
    obtain ⟨i1, i2⟩ := ih (fun x hx => hm x (by simp [hx])) m2 m3
    refine ⟨fun i h => ?_, fun ts hts => ?_⟩
    · rcases List.mem_append.1 h with h | h
      · exact d1 i h
      · exact i1 i h
    · obtain ⟨t1, t2, k1, k2, rfl⟩ := forall2_split hts
      exact .cons (d t1 k1) (i2 t2 k2)

/-- **C120.** A written drawing converted to YAML: a document with the pages that are asked for, in order, and on each page a mapping for every mark, with its place and its
colours. -/
theorem drawing_yaml (S : Setup) (h : Furnished S) (opts : Options) (images : List (List (Key × Obj) × Bytes)) (him : ∀ i ∈ images, IsImage i) (pages : List Leaf)
    (hp : ∀ p ∈ pages, ∀ m ∈ p.marks, AsciiMark images.length m) (hc : ∀ p ∈ pages, ∀ m ∈ p.marks, PlainMark m) (maxpages : Nat)
    (hmax : opts.maxpages = maxpages) (hne : asked opts.pagenos maxpages pages ≠ []) :
    ∃ f, (∃ k R, buildFont (S.fontEnv R) k helvetica = .ok f) ∧ ∃ N, ∀ fuel ≥ N, ∀ t : PyTexts, YamlTexts t.yaml → YamlFont t.yaml f →
      (∀ i ∈ images, ∃ v, YamlScalar (t.yaml.imageName i.1 i.2) v) →
      ∃ file vs, convertYaml t.yaml S opts fuel (writeDrawing helvetica images pages) = (file, none) ∧ YamlText file (.map [(pstr "pages", asSeq vs)]) ∧
        List.Forall₂ (fun x v => LeafYaml t.yaml f images x.2 x.1 v) (asked opts.pagenos maxpages pages).zipIdx vs := by
  obtain ⟨f, hb, hf, outs, k1, N, k2⟩ := written_drawing S h opts images him pages hp maxpages hmax hne
  refine ⟨f, hb, N, fun fuel hfu t ht hjf hi => ?_⟩
  obtain ⟨-, hconv⟩ := k2 fuel hfu
  clear k2
  have hmem : ∀ p ∈ asked opts.pagenos maxpages pages, ∀ m ∈ p.marks, AsciiMark images.length m ∧ PlainMark m :=
    fun p hpa m hm => ⟨hp p (mem_asked hpa) m hm, hc p (mem_asked hpa) m hm⟩
  generalize asked opts.pagenos maxpages pages = leaves at k1 hmem hconv ⊢
  have s0 : SameColor none ⟨none, []⟩ := rfl
  have hitems : ∀ p ∈ pagesWith 0 outs, ∀ i ∈ p.items, YamlItem t.yaml i := by
    clear hconv
    generalize 0 = num
    induction k1 generalizing num with
    | nil => intro p hp; cases hp
    | @cons p out l os ho _ ih =>
      intro q hq
      obtain ⟨items, rfl, hd⟩ := ho
      rcases List.mem_cons.1 hq with rfl | hq
      · exact (drawsAll_yaml t hf hjf hi hd (hmem p (by simp)) (τ := ⟨none, none⟩) s0 s0).1
      · exact ih (fun x hx => hmem x (List.mem_cons_of_mem _ hx)) _ q hq
  obtain ⟨file, vs, h1, h2, h3⟩ := hconv.yaml t.yaml ht hitems
  refine ⟨file, vs, h1, h2, ?_⟩
  clear hconv h1 h2 hitems
  generalize 0 = num at h3 ⊢
  induction k1 generalizing num vs with
  | nil => cases h3; exact .nil
  | @cons p out l os ho _ ih =>
    cases h3 with
    | @cons _ j _ js hj hr =>
      rw [List.zipIdx_cons]
      refine .cons ?_ (ih (fun x hx => hmem x (List.mem_cons_of_mem _ hx)) _ _ hr)
      obtain ⟨items, rfl, hd⟩ := ho
      cases hj with
      | mk hl => exact ⟨_, (drawsAll_yaml t hf hjf hi hd (hmem p (by simp)) (τ := ⟨none, none⟩) s0 s0).2 _ hl, rfl⟩

/-! The hypotheses can be met. -/

theorem plain_poster : Spec.Plain (pstr "Hi!") ∧ Spec.Plain (pstr "img") ∧ Spec.Plain (pstr "Helvetica") ∧ Spec.Plain (pstr "0") := by
  have h : ∀ s, (∀ c ∈ s, Spec.yamlChar c) → (∃ c r, s = c :: r ∧ c ≠ ' '.toNat ∧ c ∉ Spec.yamlIndicators ∧ c ∉ Spec.cp "-?:") →
      s.getLast? ≠ some ' '.toNat ∧ s.getLast? ≠ some ':'.toNat → ':'.toNat ∉ s → '#'.toNat ∉ s → Spec.Plain s := by
    rintro s h1 ⟨c, r, h2, h3, h4, h5⟩ h6 h7 h8
    exact ⟨h1, ⟨c, r, h2, h3, h4, fun h => absurd h h5⟩, h6, fun h => h7 (h.subset (by decide)), fun h => h8 (h.subset (by decide))⟩
  refine ⟨h _ (by unfold Spec.yamlChar; decide) ⟨_, _, rfl, by decide, by decide, by decide⟩ (by decide) (by decide) (by decide),
    h _ (by unfold Spec.yamlChar; decide) ⟨_, _, rfl, by decide, by decide, by decide⟩ (by decide) (by decide) (by decide),
    h _ (by unfold Spec.yamlChar; decide) ⟨_, _, rfl, by decide, by decide, by decide⟩ (by decide) (by decide) (by decide),
    h _ (by unfold Spec.yamlChar; decide) ⟨_, _, rfl, by decide, by decide, by decide⟩ (by decide) (by decide) (by decide)⟩

/-- The poster in YAML: one page with a rectangle in a colour, a line, a picture and a string. -/
example : ∃ N, ∀ fuel ≥ N, ∃ file page rect line img text fill m, convertYaml posterTexts.yaml sampleSetup {} fuel (writeDrawing helvetica [sampleGray] [samplePoster]) =
      (file, none) ∧ YamlText file (.map [(pstr "pages", .seq [.map (page ++ [(pstr "children", .seq [.map rect, .map line, .map img, .map text])])])]) ∧
    (pstr "type", .scalar (pstr "rect")) ∈ rect ∧ (pstr "fill", .map ((pstr "type", .scalar (pstr "DeviceRGB")) :: fill)) ∈ rect ∧
    (∀ v, (pstr "stroke", v) ∉ rect) ∧ (pstr "type", .scalar (pstr "line")) ∈ line ∧ (∃ v, YamlScalar (pstr "img") v ∧ (pstr "src", v) ∈ img) ∧
    (pstr "char_blocks", .seq [.map (m ++ [(pstr "text", .scalar (pstr "Hi!"))])]) ∈ text := by
  have ha : asked ({} : Options).pagenos 0 [samplePoster] = [samplePoster] := by simp [asked, Spec.Wanted]
  obtain ⟨p1, p2, p3, p4⟩ := plain_poster
  obtain ⟨f, _, N, k⟩ := drawing_yaml sampleSetup sample_furnished {} [sampleGray] (by intro i hi; rw [List.mem_singleton.1 hi]; exact sampleGray_image) [samplePoster]
    (by
      intro p hp m hm
      rw [List.mem_singleton.1 hp] at hm
      simp only [samplePoster, List.mem_cons, List.not_mem_nil, or_false] at hm
      rcases hm with rfl | rfl | rfl | rfl | rfl | rfl
      · trivial
      · trivial
      · trivial
      · trivial
      · exact Nat.zero_lt_one
      · exact ⟨by decide, by decide⟩)
    (by
      intro p hp m hm
      rw [List.mem_singleton.1 hp] at hm
      simp only [samplePoster, List.mem_cons, List.not_mem_nil, or_false] at hm
      rcases hm with rfl | rfl | rfl | rfl | rfl | rfl
      · trivial
      · trivial
      · trivial
      · trivial
      · trivial
      · refine .inr ?_
        rw [show (asc "Hi!").map UInt8.toNat = pstr "Hi!" by decide +kernel]
        exact p1) 0 rfl (by rw [ha]; simp)
  refine ⟨N, fun fuel hf => ?_⟩
  have hfont : posterTexts.yaml.descriptor f = [(pstr "FontName", pstr "Helvetica")] := rfl
  have himg : ∀ d raw, posterTexts.yaml.imageName d raw = pstr "img" := posterTexts_image
  obtain ⟨file, js, h1, h2, h3⟩ := k fuel hf posterTexts ⟨fun q => ⟨p4, show pstr "0" ≠ [] ∧ ∀ c ∈ pstr "0", Spec.yamlChar c ∧ c ∉ Spec.cp " ,[]{}:#&*!|>'\"%@`?" from ⟨by decide, by unfold Spec.yamlChar; decide⟩⟩⟩
    ⟨by rw [hfont]; simp, by rw [hfont]; decide, by rw [hfont]; intro p hp _; rw [List.mem_singleton.1 hp]; exact ⟨by unfold Spec.YamlKey; decide, _, .plain p3⟩⟩
    (fun i hi => by rw [List.mem_singleton.1 hi, himg]; exact ⟨_, .plain p2⟩)
  rw [ha] at h3
  cases h3 with
  | cons hl hn =>
  cases hn
  obtain ⟨l, l1, rfl⟩ := hl
  simp only [samplePoster] at l1
  cases l1 with
  | cons d1 l1 =>
  cases d1
  cases l1 with
  | cons d2 l1 =>
  cases d2
  cases l1 with
  | cons d3 l1 =>
  cases d3 with
  | rect s1 =>
  obtain ⟨b, q, s, -, g1, g2, rfl⟩ := s1
  cases g1
  cases g2
  cases l1 with
  | cons d4 l1 =>
  cases d4 with
  | line s2 =>
  obtain ⟨b2, q2, s2, -, -, -, rfl⟩ := s2
  cases l1 with
  | cons d5 l1 =>
  cases d5 with
  | image hg hv _ =>
  cases hg
  rw [himg] at hv
  cases l1 with
  | cons d6 l1 =>
  cases d6 with
  | text _ _ _ =>
  cases l1
  have e : textYaml ((asc "Hi!").map UInt8.toNat) = .scalar (pstr "Hi!") := by
    rw [show (asc "Hi!").map UInt8.toNat = pstr "Hi!" by decide +kernel]
    exact if_neg (by decide)
  rw [e] at h2
  refine ⟨file, [(pstr "id", .scalar _), (pstr "width", .scalar _), (pstr "height", .scalar _)], _, _, _, _, _, _, h1, h2, by simp,
    List.mem_append.2 (.inl (List.mem_append.2 (.inr (List.mem_singleton.2 rfl)))), ?_, by simp, ⟨_, hv, by simp⟩, List.mem_append.2 (.inr (List.mem_singleton.2 rfl))⟩
  · intro v hm
    have hk := List.mem_map_of_mem (f := Prod.fst) hm
    revert hk
    rw [List.append_nil]
    show pstr "stroke" ∉ [pstr "type", pstr "x0", pstr "x1", pstr "y0", pstr "y1", pstr "fill"]
    decide +kernel

end Pdf

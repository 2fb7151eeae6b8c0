import Verif.Props.WrittenPages
import Verif.Props.Provenance
import Verif.Spec.WrittenLines
/-! C98: the lines of a written document in every format. -/

namespace Pdf
open Spec

/-! ### The items of a page with lines -/

theorem showText_block {f : Font} {s s' : St} {b : TextBlock} {x : Bytes} {t : PyStr} (hf : s.text.font = some f) (hb : s.block = some b)
    (hz : s.text.fontsize = .int 12) (hc : s.graphics.ncolor = ⟨none, []⟩) (h : StringText f s.text.ignoreBad x t) (e : showText [.str x] s = .ok s') :
    ∃ bbox cb, s' = { s with block := some ⟨some bbox, b.blocks ++ [cb]⟩, lines := s'.lines } ∧ LineBlock f t cb := by
  unfold showText at e
  rw [hf, hb] at e
  simp only at e
  split at e
  · cases e
  · rename_i cb line hs
    cases e
    refine ⟨_, cb, rfl, ?_⟩
    simp only [showSeq, bind, Except.bind] at hs
    split at hs
    · cases hs
    · split at hs
      · cases hs
      · rename_i r hr
        split at hs
        · cases hs
        · rename_i cb' hcb
          cases hs
          have ht := renderSeq_text (stringText_array h) hr
          cases hr' : r.chars with
          | nil => rw [hr'] at hcb; cases hcb
          | cons c cs =>
            rw [hr'] at hcb
            simp only [mkCharBlock] at hcb
            cases hcb
            refine ⟨?_, rfl, hz, hc⟩
            unfold renderText at ht
            rw [hr'] at ht
            simp only [charText, List.map_map]
            rw [show (Prod.fst ∘ mkChar f) = Prod.fst from rfl]
            simpa using ht

theorem lines_items {E : Env1} {nested : List Obj → St → Gen Item} {f : Font} {ig : Bool} {lines : List Bytes} {ts : List PyStr}
    (h : List.Forall₂ (StringText f ig) lines ts) : ∀ (e : Option PyErr) (s s' : St) (items : List Item) (b : TextBlock), s.text.font = some f → s.text.ignoreBad = ig →
      s.text.fontsize = .int 12 → s.graphics.ncolor = ⟨none, []⟩ → s.block = some b → s.done = [] →
      runWith E nested (lines.flatMap (fun x => [.int 0, .int (-14), operator "Td", .str x, operator "Tj"]) ++ [operator "ET"]) e s = ((items, none), s') →
      ∃ b' bs, items = [.text b'] ∧ b'.blocks = b.blocks ++ bs ∧ List.Forall₂ (LineBlock f) ts bs := by
  induction h with
  | nil =>
    intro e s s' items b hf hi hz hc hb hd hr
    obtain ⟨s1, i1, i2, h1, h2, h3, rfl⟩ := runWith_cons hr
    simp only [List.flatMap_nil, List.nil_append] at hr
    have : exec E.R s (operator "ET") = opEnd [] s := rfl
    rw [this] at h1
    simp only [opEnd, hb, hd, List.nil_append] at h1
    cases h1
    simp only [finish] at h2
    cases h2
    simp only [runWith] at h3
    cases h3
    exact ⟨b, [], rfl, by simp, .nil⟩
  | @cons x t xs ts hx _ ih =>
    intro e s s' items b hf hi hz hc hb hd hr
    rw [List.flatMap_cons, List.append_assoc] at hr
    obtain ⟨s1, i1, i2, h1, h2, h3, rfl⟩ := runWith_op (as := [.int 0, .int (-14)]) (n := asc "Td") (f := opMove) (by intro a ha n; simp at ha; rcases ha with rfl | rfl <;> simp) rfl hd hr
    obtain ⟨f1, f2, f3, f4, f5, f6⟩ : s1.text.font = some f ∧ s1.text.ignoreBad = ig ∧ s1.text.fontsize = .int 12 ∧ s1.graphics.ncolor = ⟨none, []⟩ ∧ s1.block = some b ∧ s1.done = [] := by
      simp only [opMove, bind, Except.bind, Obj.num, Obj.num?] at h1
      cases h1
      exact ⟨hf, hi, hz, hc, hb, hd⟩
    rw [f6] at h2
    simp only [finish] at h2
    cases h2
    clear h1
    obtain ⟨s2, j1, j2, k1, k2, k3, rfl⟩ := runWith_op (as := [.str x]) (n := asc "Tj") (f := opShow) (by intro a ha n; simp at ha; subst ha; simp) rfl rfl h3
    subst hi
    rw [← f2] at hx
    obtain ⟨bbox, cb, g1, g2⟩ := showText_block (s := { s1 with done := [] }) (f := f) (b := b) (t := t) f1 f5 f3 f4 hx k1
    rw [g1] at k2
    simp only [finish] at k2
    cases k2
    rw [g1] at k3
    obtain ⟨b', bs, m1, m2, m3⟩ := ih e { s1 with block := some ⟨some bbox, b.blocks ++ [cb]⟩, lines := s2.lines, done := [] } s' j2 _ f1 f2 f3 f4 rfl rfl k3
    exact ⟨b', cb :: bs, by simpa using m1, by rw [m2, List.append_assoc]; rfl, .cons g2 m3⟩

theorem prepState_start {E : Env1} {m : Mat} {res : Obj} {ig : Bool} {s : St} (h : prepState E m res ig = .ok s) :
    s.graphics.ncolor = ⟨none, []⟩ ∧ s.text.ignoreBad = ig ∧ s.done = [] ∧ s.block = none := by
  simp only [prepState, initResources] at h
  split at h
  · cases h
  · obtain ⟨cm, fm, xm, rfl, _⟩ := initEntries_frame h
    exact ⟨rfl, rfl, rfl, rfl⟩

theorem page_items {E : Env1} {nested : List Obj → St → Gen Item} {m : Mat} {res : Obj} {ig : Bool} {f : Font} {lines : List Bytes} {ts : List PyStr}
    (hf : FontNamed E res (asc "F1") f) (h : List.Forall₂ (StringText f ig) lines ts) (e : Option PyErr) (s s' : St) (items : List Item)
    (hs : prepState E m res ig = .ok s) (hr : runWith E nested (textOps lines) e s = ((items, none), s')) :
    ∃ b, items = [.text b] ∧ List.Forall₂ (LineBlock f) ts b.blocks := by
  obtain ⟨c1, c2, c3, c4⟩ := prepState_start hs
  have ha := (agrees_start hs).fonts _ _ hf
  unfold textOps at hr
  obtain ⟨s1, i1, i2, h1, h2, h3, rfl⟩ := runWith_cons hr
  obtain ⟨f1, f2, f3, f4, f5⟩ : s1.text.ignoreBad = ig ∧ s1.graphics.ncolor = ⟨none, []⟩ ∧ s1.block = some {} ∧ s1.done = [] ∧ s1.fontmap = s.fontmap := by
    have : exec E.R s (operator "BT") = opBegin [] s := rfl
    rw [this] at h1
    simp only [opBegin, c4] at h1
    cases h1
    exact ⟨c2, c1, rfl, c3, rfl⟩
  rw [f4] at h2
  simp only [finish] at h2
  cases h2
  clear h1
  obtain ⟨s2, j1, j2, k1, k2, k3, rfl⟩ := runWith_op (as := [.name (asc "F1"), .int 12]) (n := asc "Tf") (f := opFont) (by intro a ha n; simp at ha; rcases ha with rfl | rfl <;> simp) rfl rfl h3
  obtain ⟨g0, g1, g2, g3, g4, g5⟩ : s2.text.font = some f ∧ s2.text.ignoreBad = ig ∧ s2.text.fontsize = .int 12 ∧ s2.graphics.ncolor = ⟨none, []⟩ ∧ s2.block = some {} ∧ s2.done = [] := by
    have hk : (Obj.name (asc "F1")).key = .ok (.name (asc "F1")) := rfl
    simp only [opFont, hk, f5, ha] at k1
    cases k1
    exact ⟨rfl, f1, rfl, f2, f3, rfl⟩
  rw [g5] at k2
  simp only [finish] at k2
  cases k2
  obtain ⟨b', bs, m1, m2, m3⟩ := lines_items h e { s2 with done := [] } s' j2 {} g0 g1 g2 g3 g4 rfl k3
  refine ⟨b', by simpa using m1, ?_⟩
  rw [m2]
  exact m3

/-! ### The pages of a document with lines -/

/-- The page with the dictionaries `ds` has lines with these texts in this font. -/
def LinesOn (S : Setup) (ig : Bool) (f : Font) (R : Resolver) (ds : List Dict) (x : List PyStr) : Prop :=
  ∃ (font : List (Key × Obj)) (lines : List Bytes) (n k kf : Nat), ds = [pageDict k, pagesDict n, catalogDict] ∧ R.resolve1 (.ref 3 0) = .ok (.dict font) ∧
    R.resolve1 (.ref ((2 * k + 5 : Nat) : Int) 0) = .ok (contentObj lines) ∧ buildFont (S.fontEnv R) kf font = .ok f ∧
    List.Forall₂ (PlacedText f ig) lines x ∧ ∀ s ∈ lines, HasCharacter f [.str s]

theorem placed_string {f : Font} {ig : Bool} {s : Bytes} {t : PyStr} (h : PlacedText f ig s t) : StringText f ig s t := by
  obtain ⟨codes, ts, h1, h2, h3, _⟩ := h
  exact ⟨codes, ts, h1, h2, h3⟩

theorem lines_deliver {S : Setup} (hb : 0 < S.bufsiz) {objs : List (Int × Obj)} {ig : Bool} {p : Page} {leaf : Int × List Dict} {f : Font}
    {x : List PyStr} (hp : PageOf (fileResolver objs) p leaf) (hx : LinesOn S ig f (fileResolver objs) leaf.2 x) :
    ∃ out, (Evt fun n => Delivers S (fileResolver objs) ig n p out) ∧ LinesOut f x out := by
  obtain ⟨font, lines, n, k, kf, hds, hf, hc, hbf, hpl, hch⟩ := hx
  have hR : (fileResolver objs).Direct := fileResolver_direct objs
  generalize fileResolver objs = R at *
  have hE := textEnv_serves S R hR kf lines
  have hgeo : ∃ ctm, pageGeometry p.mediabox p.rotate = .ok (ctm, 612, 792) := by
    obtain ⟨o', h10, h11⟩ := hp.media
    rw [hds] at h10
    cases h10
    rw [hR _ (by simp)] at h11
    rw [← Except.ok.inj h11]
    simp only [pageGeometry, Obj.num, Obj.num?, bind, Except.bind]
    norm_num
  obtain ⟨ctm, hgeo⟩ := hgeo
  have hres : p.resources = .dict textRes := by
    have := hp.resources
    rw [hds] at this
    have h1 : (pageAttr [pageDict k, pagesDict n, catalogDict] (.name (asc "Resources"))).getD (.dict []) = .dict textRes := rfl
    rw [h1, hR _ (by simp)] at this
    exact (Except.ok.inj this).symm
  have hcont : p.contents = [contentObj lines] := by
    have := hp.contents
    rw [hds] at this
    have h1 : (([pageDict k, pagesDict n, catalogDict] : List Dict).head?.bind fun d => dictGet d (.name (asc "Contents"))) = some (.ref ((2 * k + 5 : Nat) : Int) 0) := rfl
    rw [h1] at this
    obtain ⟨c2, h10, h11⟩ := this
    rw [hc] at h10
    cases h10
    exact h11
  have hcn : ((textEnv S R kf lines).content [contentObj lines]) = (textOps lines, none) := by simp [textEnv]
  have hwf := text_wellFormed S font R hR kf f ig lines x hf hbf hpl hch
  obtain ⟨N, hN⟩ := well_formed_page (textEnv S R kf lines) (fun d => hR _ (by simp)) textRes (text_usable S font R hR kf f lines hf hbf) ig [contentObj lines]
    (by rw [hcn]) x.flatten (by rw [hcn]; exact hwf)
  obtain ⟨s, items, s', g1, g2, _⟩ := hN (N + 1) (by omega) ctm
  have hfrom := items_from _ (N + 1) [contentObj lines] ctm (.dict textRes) ig s g1
  rw [g2] at hfrom
  have g2' := g2
  simp only [run, hcn] at g2'
  obtain ⟨b, hb1, hb2⟩ := page_items (f := f) ⟨.ref 3 0, font, ⟨textRes, [(nm "F1", .ref 3 0)], hR _ (by simp), by decide, .given rfl (hR _ (by simp)), by decide, rfl⟩, hf, hbf⟩
    (hpl.imp fun _ _ => placed_string) none s s' items g1 g2'
  refine ⟨(612, 792, items), ?_, b, by rw [hb1], ?_, hb2⟩
  · refine ((prepState_limit hE g1).and (run_limit hb hE (N + 1) id (Evt.ge (N + 1)) _ _ _ _ g2)).mono fun n hn => ?_
    exact ⟨ctm, s, s', hgeo, hres ▸ hn.1, hcont ▸ hn.2⟩
  · exact (text_inv (hfrom (.text b) (by rw [hb1]; simp))).2


/-! ### The formats -/

theorem linesOut_sheet {f : Font} {x : List PyStr} {out : ℚ × ℚ × List Item} (h : LinesOut f x out) (num : Nat) : PageIs num (letter x.flatten) (pageWith num out) := by
  obtain ⟨b, rfl, _, hl⟩ := h
  refine ⟨rfl, rfl, rfl, [_], .cons .text .nil, ?_⟩
  have : b.blocks.map (fun cb => (cb.chars.map Prod.fst).flatten) = x := by
    generalize b.blocks = bs at hl
    induction hl with
    | nil => rfl
    | cons h _ ih => rw [List.map_cons, ih]; exact congrArg (· :: _) h.text
  rw [this]
  simp [letter]

theorem linesOut_mem {f : Font} {pages : List (List PyStr)} {outs : List (ℚ × ℚ × List Item)} (h : List.Forall₂ (LinesOut f) pages outs) : ∀ num,
    ∀ p ∈ pagesWith num outs, ∃ lines ∈ pages, ∃ b, p.items = [.text b] ∧ (b.bbox = none ↔ b.blocks = []) ∧ List.Forall₂ (LineBlock f) lines b.blocks := by
  induction h with
  | nil => intro num p hp; cases hp
  | @cons x out _ _ h _ ih =>
    intro num p hp
    simp only [pagesWith, List.mem_cons] at hp
    rcases hp with rfl | hp
    · obtain ⟨b, rfl, h1, h2⟩ := h
      exact ⟨x, by simp, b, rfl, h1, h2⟩
    · obtain ⟨lines, h1, h2⟩ := ih _ p hp
      exact ⟨lines, by simp [h1], h2⟩

/-- The characters of a char-block are in its line. -/
theorem lineBlock_char {f : Font} {lines : List PyStr} {blocks : List CharBlock} (h : List.Forall₂ (LineBlock f) lines blocks) {cb : CharBlock} (hc : cb ∈ blocks) :
    ∃ t ∈ lines, LineBlock f t cb ∧ ∀ c ∈ cb.chars, ∀ x ∈ c.1, x ∈ t := by
  induction h with
  | nil => cases hc
  | @cons t b _ _ h _ ih =>
    rcases List.mem_cons.1 hc with rfl | hc
    · refine ⟨t, by simp, h, fun c hc x hx => ?_⟩
      rw [← h.text]
      exact List.mem_flatten.2 ⟨c.1, List.mem_map.2 ⟨c, hc, rfl⟩, hx⟩
    · obtain ⟨t', h1, h2⟩ := ih hc
      exact ⟨t', by simp [h1], h2⟩

/-! ### The elements of the XML document -/

/-- How many of the tags have this name. -/
def countTag (tag : PyStr) (l : List Tag) : Nat := (l.filter fun t => t.1 == tag).length

theorem countTag_append (tag : PyStr) (a b : List Tag) : countTag tag (a ++ b) = countTag tag a + countTag tag b := by
  simp [countTag]

theorem tags_count {a b : List Tag} (h : List.Forall₂ ReadsTag a b) (tag : PyStr) : countTag tag b = countTag tag a := by
  induction h with
  | nil => rfl
  | @cons x y _ _ h _ ih =>
    unfold countTag at ih ⊢
    rw [List.filter_cons, List.filter_cons, ← h.1]
    split <;> simp [ih]

theorem blocks_count (env : ConvEnv) (blocks : List CharBlock) :
    countTag (pstr "page") (blocks.flatMap (blockTags env)) = 0 ∧ countTag (pstr "char-block") (blocks.flatMap (blockTags env)) = blocks.length := by
  have c1 : ∀ l : List (Text × Bbox × ℚ), countTag (pstr "page") (l.map fun c => (pstr "char", boxAttrs env c.2.1)) = 0 := by
    intro l
    have : (pstr "char" == pstr "page") = false := by decide
    unfold countTag
    rw [List.filter_eq_nil_iff.2]
    · rfl
    · intro a ha
      obtain ⟨c, _, rfl⟩ := List.mem_map.1 ha
      simp [this]
  have c2 : ∀ l : List (Text × Bbox × ℚ), countTag (pstr "char-block") (l.map fun c => (pstr "char", boxAttrs env c.2.1)) = 0 := by
    intro l
    have : (pstr "char" == pstr "char-block") = false := by decide
    unfold countTag
    rw [List.filter_eq_nil_iff.2]
    · rfl
    · intro a ha
      obtain ⟨c, _, rfl⟩ := List.mem_map.1 ha
      simp [this]
  induction blocks with
  | nil => exact ⟨rfl, rfl⟩
  | cons b bs ih =>
    rw [List.flatMap_cons, countTag_append, countTag_append, ih.1, ih.2]
    have e1 : countTag (pstr "page") (blockTags env b) = 0 := by
      have h : (pstr "char-block" == pstr "page") = false := by decide
      have := c1 b.chars
      unfold countTag at this ⊢
      unfold blockTags
      rw [List.filter_cons, h]
      exact this
    have e2 : countTag (pstr "char-block") (blockTags env b) = 1 := by
      have h : (pstr "char-block" == pstr "char-block") = true := by decide
      have := c2 b.chars
      unfold countTag at this ⊢
      unfold blockTags
      rw [List.filter_cons, h]
      simp only [if_true, List.length_cons]
      rw [this]
    rw [e1, e2, List.length_cons]
    omega

theorem page_count {env : ConvEnv} {f : Font} {num : Nat} {x : List PyStr} {out : ℚ × ℚ × List Item} {ts : List Tag} (h : LinesOut f x out) (ht : PageTags env (pageWith num out) ts) :
    countTag (pstr "page") ts = 1 ∧ countTag (pstr "char-block") ts = x.length := by
  obtain ⟨b, rfl, _, hl⟩ := h
  obtain ⟨l, h1, rfl⟩ := ht
  cases h1 with
  | cons h1 hn =>
    cases hn
    cases h1
    obtain ⟨g1, g2⟩ := blocks_count env b.blocks
    have a1 : (pstr "page" == pstr "page") = true := by decide
    have a2 : (pstr "page" == pstr "char-block") = false := by decide
    have a3 : (pstr "text-block" == pstr "page") = false := by decide
    have a4 : (pstr "text-block" == pstr "char-block") = false := by decide
    rw [hl.length_eq]
    unfold countTag at g1 g2 ⊢
    rw [List.flatten_cons, List.flatten_nil, List.append_nil, List.filter_cons, List.filter_cons, List.filter_cons, List.filter_cons]
    simp only [a1, a2, a3, a4, if_true, Bool.false_eq_true, if_false, List.length_cons]
    rw [g1]
    exact ⟨rfl, g2⟩

theorem pages_count {env : ConvEnv} {f : Font} {pages : List (List PyStr)} {outs : List (ℚ × ℚ × List Item)} (h : List.Forall₂ (LinesOut f) pages outs) :
    ∀ {num : Nat} {tags : List (List Tag)}, List.Forall₂ (PageTags env) (pagesWith num outs) tags →
      countTag (pstr "page") ((pstr "pages", []) :: tags.flatten) = pages.length ∧
      countTag (pstr "char-block") ((pstr "pages", []) :: tags.flatten) = (pages.map List.length).sum := by
  have a1 : (pstr "pages" == pstr "page") = false := by decide
  have a2 : (pstr "pages" == pstr "char-block") = false := by decide
  have key : ∀ {num : Nat} {tags : List (List Tag)}, List.Forall₂ (PageTags env) (pagesWith num outs) tags →
      countTag (pstr "page") tags.flatten = pages.length ∧ countTag (pstr "char-block") tags.flatten = (pages.map List.length).sum := by
    induction h with
    | nil => intro num tags ht; cases ht; exact ⟨rfl, rfl⟩
    | cons h _ ih =>
      intro num tags ht
      cases ht with
      | cons h1 h2 =>
        obtain ⟨g1, g2⟩ := ih h2
        obtain ⟨g3, g4⟩ := page_count h h1
        rw [List.flatten_cons, countTag_append, countTag_append, g1, g2, g3, g4]
        simp only [List.length_cons, List.map_cons, List.sum_cons]
        exact ⟨Nat.add_comm _ _, trivial⟩
  intro num tags ht
  obtain ⟨g1, g2⟩ := key ht
  unfold countTag at g1 g2 ⊢
  rw [List.filter_cons, List.filter_cons, a1, a2]
  exact ⟨g1, g2⟩

/-- What the converters write for the pages with these lines. -/
theorem lines_converted {S : Setup} {opts : Options} {fuel : Nat} {data : Bytes} {f : Font} {pages : List (List PyStr)} {outs : List (ℚ × ℚ × List Item)}
    (h : List.Forall₂ (LinesOut f) pages outs) (hd : deliver S opts fuel data = { pages := pagesWith 0 outs }) : LinesWritten S opts fuel data f pages := by
  have hp : PagesAre 0 (pages.map fun x => letter x.flatten) (pagesWith 0 outs) := by
    refine pagesAre_with ?_ 0
    rw [List.forall₂_map_left_iff]
    exact h.imp fun _ _ h num => linesOut_sheet h num
  have hc := delivered_converted hp hd
  have ht : (pages.map fun x => letter x.flatten).map Sheet.text = pages.map List.flatten := by
    rw [List.map_map]; rfl
  have hm := linesOut_mem h 0
  refine ⟨?_, ?_, ?_, ?_, ?_⟩
  · rw [hc.text, ht]
  · intro env henv hfont hl
    obtain ⟨file, js, h1, h2, h3, h0⟩ := hc.json env henv (by
      intro p hp i hi
      obtain ⟨lines, hls, b, e, hb, hx⟩ := hm p hp
      rw [e] at hi
      simp only [List.mem_singleton] at hi
      subst hi
      refine .text ?_ ?_
      · rw [Option.isSome_iff_ne_none]
        intro hn
        rw [hb.1 hn] at hx
        cases hx
        exact (hl _ hls).1 rfl
      · intro cb hcb
        obtain ⟨t, ht, hlb, hch⟩ := lineBlock_char hx hcb
        exact ⟨fun c hc x hx => (hl _ hls).2 t ht x (hch c hc x hx), by rw [hlb.font]; exact hfont.keys, by rw [hlb.font]; exact hfont.fresh⟩)
    refine ⟨file, js, h1, h2, ?_⟩
    clear h0 hc hp h1 h2 hm hl ht hd
    generalize 0 = num at h3
    induction h generalizing num js with
    | nil => cases h3; exact .nil
    | @cons x out l outs ho _ ih =>
      cases h3 with
      | @cons _ j _ js hj hr =>
        rw [List.zipIdx_cons]
        refine .cons ?_ (ih _ _ hr)
        obtain ⟨b, rfl, _, hls⟩ := ho
        obtain ⟨c, hc, hi⟩ := hj.children
        refine ⟨hj.id, hj.width, hj.height, ?_⟩
        cases hi with
        | cons hi hn =>
          cases hn
          cases hi with
          | @text _ box j' l' hb1 hb2 hb3 hb4 hb5 =>
            refine ⟨_, _, hc, hb2, hb4, ?_⟩
            exact forall2_comp hls hb5 fun t cb c h1 h2 => ⟨by rw [h2.text, ← h1.text]; rfl, fun p hp hk => h2.descriptor p (by rw [h1.font]; exact hp) hk⟩
  · intro env henv hfont hl
    obtain ⟨file, vs, h1, h2, h3⟩ := hc.yaml env henv (by
      intro p hp i hi
      obtain ⟨lines, hls, b, e, hb, hx⟩ := hm p hp
      rw [e] at hi
      simp only [List.mem_singleton] at hi
      subst hi
      refine .text fun cb hcb => ?_
      obtain ⟨t, ht, hlb, _⟩ := lineBlock_char hx hcb
      refine ⟨?_, by rw [hlb.color]; exact (fun _ h => nomatch h), by rw [hlb.font]; exact hfont.keys, by rw [hlb.font]; exact hfont.fresh, by rw [hlb.font]; exact hfont.values⟩
      have := hlb.text
      unfold charText at this
      rw [this]
      exact hl _ hls t ht)
    refine ⟨file, vs, h1, h2, ?_⟩
    clear hc hp h1 h2 hm hl ht hd
    generalize 0 = num at h3
    induction h generalizing num vs with
    | nil => cases h3; exact .nil
    | @cons x out l outs ho _ ih =>
      cases h3 with
      | @cons _ j _ js hj hr =>
        rw [List.zipIdx_cons]
        refine .cons ?_ (ih _ _ hr)
        obtain ⟨b, rfl, _, hls⟩ := ho
        cases hj with
        | mk hi =>
          cases hi with
          | cons hi hn =>
            cases hn
            cases hi with
            | text hb5 =>
              refine LinesYaml.mk (box := boxYamlOpt env b.bbox) ?_
              refine forall2_comp hls hb5 fun t cb c h1 h2 => ?_
              cases h2 with
              | @mk ds _ =>
                refine ⟨(pstr "size", .scalar (env.fmt cb.size)) :: boxYaml env cb.bbox ++ colorYaml env (pstr "color") cb.color ++ ds, ?_⟩
                rw [← h1.text]
                rfl
  · intro env codec henv hfont hl
    have hi : ∀ p ∈ pagesWith 0 outs, ∀ i ∈ p.items, XmlItem env i := by
      intro p hp i hi
      obtain ⟨lines, hls, b, e, hb, hx⟩ := hm p hp
      rw [e] at hi
      simp only [List.mem_singleton] at hi
      subst hi
      refine .text fun cb hcb => ?_
      obtain ⟨t, ht, hlb, hch⟩ := lineBlock_char hx hcb
      exact ⟨fun c hc x hx => hl _ hls t ht x (hch c hc x hx), by rw [hlb.color]; exact (fun _ h => nomatch h), by rw [hlb.font]; exact hfont.descriptor, by rw [hlb.font]; exact hfont.names,
        by rw [hlb.font]; exact hfont.fresh⟩
    obtain ⟨body, ev, h1, h2, _, h3, tags, h4, h5⟩ := xml_document_partial env henv codec _ hi _ (pagesAre_shows hp)
    refine ⟨body, ev, ?_, h2, by rw [h3, ht], ?_, ?_⟩
    · unfold convertXml
      rw [hd, ← h1]
    · exact (tags_count h5 _).trans (pages_count h h4).1
    · exact (tags_count h5 _).trans (pages_count h h4).2
  · intro env codec henv hcd hfont hw hl
    obtain ⟨file, ev, h1, h2, h3⟩ := hc.html env codec henv hcd (by
      intro p hp i hi
      obtain ⟨lines, hls, b, e, hb, hx⟩ := hm p hp
      rw [e] at hi
      simp only [List.mem_singleton] at hi
      subst hi
      refine ⟨.text fun cb hcb => ?_, ?_⟩
      · obtain ⟨t, ht, hlb, hch⟩ := lineBlock_char hx hcb
        exact ⟨fun c hc x hx => hl _ hls t ht x (hch c hc x hx), by rw [hlb.font]; exact hfont, by rw [hlb.color]; exact (fun _ h => nomatch h)⟩
      · intro hr
        cases hr with
        | weight hcb hn =>
          obtain ⟨t, ht, hlb, hch⟩ := lineBlock_char hx hcb
          rw [hlb.font] at hn
          exact hw hn
        | color hcb hn =>
          obtain ⟨t, ht, hlb, hch⟩ := lineBlock_char hx hcb
          obtain ⟨cs, hn, _⟩ := hn
          rw [hlb.color] at hn
          cases hn)
    exact ⟨file, ev, h1, h2, by rw [h3, ht]⟩

/-! ### Written documents -/

/-- The pages of a document with lines, in a font of the document. -/
theorem lines_in (S : Setup) (objs : List (Int × Obj)) (font : List (Key × Obj)) (ig : Bool) (pages : List (List Bytes)) (texts : List (List PyStr)) (hT : TextTable objs font pages)
    (k : Nat) (f : Font) (hb : buildFont (S.fontEnv (fileResolver objs)) k font = .ok f)
    (h : List.Forall₂ (fun lines ts => List.Forall₂ (PlacedText f ig) lines ts ∧ ∀ s ∈ lines, HasCharacter f [.str s]) pages texts) :
    List.Forall₂ (fun leaf x => LinesOn S ig f (fileResolver objs) leaf.2 x) ((textTree pages).leaves [catalogDict]) texts := by
  obtain ⟨g1, g2, g3, g4⟩ := hT
  have hz : ∀ i g, i ≠ 0 → (fileResolver objs).resolve1 (.ref i g) = .ok ((dictGet objs i).getD .null) := fun i g hi => if_neg hi
  rw [textTree, PageTree.leaves, text_leaves, List.forall₂_map_left_iff]
  rw [List.forall₂_iff_get] at h ⊢
  refine ⟨by simpa using h.1, fun i h1 h2 => ?_⟩
  obtain ⟨t1, t2⟩ := h.2 i (by simpa using h1) h2
  simp only [List.get_eq_getElem, List.getElem_range] at t1 t2 ⊢
  refine ⟨font, _, _, i, k, rfl, by rw [hz _ _ (by decide), g3]; rfl, ?_, hb, t1, t2⟩
  rw [hz _ _ (by omega), (g4 i _ (List.getElem?_eq_getElem (by simpa using h1))).2]; rfl

/-- A page with lines is a page with text. -/
theorem linesOn_text {S : Setup} {ig : Bool} {f : Font} {objs : List (Int × Obj)} {ds : List Dict} {x : List PyStr} (h : LinesOn S ig f (fileResolver objs) ds x) :
    PageText S (fileResolver objs) ig ds x.flatten := by
  obtain ⟨font, lines, n, k, kf, hds, hf, hc, hbf, hpl, hch⟩ := h
  rw [hds]
  exact text_page S font _ (fileResolver_direct _) (fun i g hi => ⟨_, if_neg hi⟩) n k kf f ig lines x hf hc hbf hpl hch

/-- A file with a catalog, a page tree, a font and pages with lines is converted. -/
theorem lines_file (S : Setup) (hb : 0 < S.bufsiz) (opts : Options) (objs : List Obj) (ho : ∀ o ∈ objs, Writable o) (font : List (Key × Obj)) (pages : List (List Bytes))
    (texts : List (List PyStr)) (hT : TextTable (numbered 1 objs) font pages) (k : Nat) (f : Font)
    (hf : buildFont (S.fontEnv (fileResolver (numbered 1 objs))) k font = .ok f)
    (h : List.Forall₂ (fun lines ts => List.Forall₂ (PlacedText f opts.ignoreBad) lines ts ∧ ∀ s ∈ lines, HasCharacter f [.str s]) pages texts)
    (maxpages : Nat) (hmax : opts.maxpages = maxpages) (hne : asked opts.pagenos maxpages texts ≠ []) :
    ∃ outs, List.Forall₂ (LinesOut f) (asked opts.pagenos maxpages texts) outs ∧ ∃ N, ∀ fuel ≥ N,
      deliver S opts fuel (writeFile objs [(nm "Size", .int ↑(objs.length + 1)), (nm "Root", .ref 1 0)]) = { pages := pagesWith 0 outs } ∧
      LinesWritten S opts fuel (writeFile objs [(nm "Size", .int ↑(objs.length + 1)), (nm "Root", .ref 1 0)]) f (asked opts.pagenos maxpages texts) := by
  obtain ⟨g1, g2, _⟩ := text_pages_in S _ font opts.ignoreBad pages (texts.map List.flatten) hT ⟨k, f, hf, by
    rw [List.forall₂_map_right_iff]
    exact h.imp fun _ ts h => ⟨ts, h.1, h.2, rfl⟩⟩
  have hdoc := document_in S objs ho pages (LinesOn S opts.ignoreBad f) texts g1 g2 (lines_in S _ font opts.ignoreBad pages texts hT k f hf h)
  generalize writeFile objs _ = data at hdoc ⊢
  obtain ⟨secs, objs, before, t, after, root, catalog, o, T, h1, h2, h3, h4, h5, h6, h7, h8, h9, h10, h11⟩ := hdoc
  obtain ⟨outs, k1, N, k2⟩ := opened_outs S data opts (LinesOn S opts.ignoreBad f) (LinesOut f) texts h9 h10 h11
    (fun ds x hx => ⟨_, linesOn_text hx⟩) (fun p leaf x hp hx => lines_deliver hb hp hx)
    ((document_open hb h1 h2 h3 h4 h5 h6 h7 h8 opts.password opts.caching).mono (by
      rintro n ⟨O, k1, k2, k3, k4⟩
      exact ⟨O, k1, by rw [k2]; rfl, k3, k4⟩)) maxpages hmax hne
  exact ⟨outs, k1, N, fun fuel hf => ⟨k2 fuel hf, lines_converted k1 (k2 fuel hf)⟩⟩

/-- **C98.** Lines of text written in Helvetica (see C92) become char-blocks: every page that is asked for has one text block with a char-block for
every line, and so have the documents that the converters write. -/
theorem written_lines (S : Setup) (h : Furnished S) (opts : Options) (pages : List (List Bytes)) (texts : List (List PyStr)) (hn : ∀ lines ∈ pages, ∀ s ∈ lines, s ≠ [])
    (hp : List.Forall₂ (List.Forall₂ WinText) pages texts) (maxpages : Nat) (hmax : opts.maxpages = maxpages) (hne : asked opts.pagenos maxpages texts ≠ []) :
    ∃ f, (∃ k R, buildFont (S.fontEnv R) k helvetica = .ok f) ∧
    ∃ outs, List.Forall₂ (LinesOut f) (asked opts.pagenos maxpages texts) outs ∧ ∃ N, ∀ fuel ≥ N,
      deliver S opts fuel (writeText helvetica pages) = { pages := pagesWith 0 outs } ∧
      LinesWritten S opts fuel (writeText helvetica pages) f (asked opts.pagenos maxpages texts) := by
  obtain ⟨f, h1, h2⟩ := helvetica_built S h (fileResolver (numbered 1 (textObjs helvetica pages))) (fileResolver_direct _)
  refine ⟨f, ⟨1, _, h1⟩, lines_file S h.bufsiz opts _ (writable_text helvetica helvetica_wf pages) helvetica pages texts
    (let ⟨g1, g2, g3, g4⟩ := textObjs_get helvetica pages; ⟨g1, g2, g3, g4⟩) 1 f h1 ?_ maxpages hmax hne⟩
  clear hne h1
  induction hp with
  | nil => exact .nil
  | @cons lines ts _ _ h3 _ ih =>
    refine .cons ⟨h3.imp fun _ _ => helvetica_placed h2 opts.ignoreBad, fun s hs => ?_⟩ (ih (fun l hl => hn l (by simp [hl])))
    cases s with
    | nil => exact absurd rfl (hn lines (by simp) [] hs)
    | cons c s => exact ⟨c :: s, _, _, by simp, h2.decode _⟩

/-- **C98**, for text in any characters (see C95). -/
theorem unicode_written_lines (S : Setup) (hb : 0 < S.bufsiz) (opts : Options) (alphabet : List (List Char)) (hl : alphabet.length ≤ 65536) (pages : List (List (List Nat)))
    (hp : ∀ lines ∈ pages, ∀ line ∈ lines, line ≠ [] ∧ ∀ c ∈ line, c < alphabet.length) (maxpages : Nat) (hmax : opts.maxpages = maxpages) (texts : List (List PyStr))
    (ht : texts = asked opts.pagenos maxpages (pages.map fun lines => lines.map (codesText alphabet))) (hne : texts ≠ []) :
    ∃ f, (∃ k R, buildFont (S.fontEnv R) k (uniFont (2 * pages.length + 4)) = .ok f) ∧
    ∃ outs, List.Forall₂ (LinesOut f) texts outs ∧ ∃ N, ∀ fuel ≥ N,
      deliver S opts fuel (writeCodes alphabet pages) = { pages := pagesWith 0 outs } ∧ LinesWritten S opts fuel (writeCodes alphabet pages) f texts := by
  subst ht
  obtain ⟨g1, g2, g3, g4⟩ := uniObjs_get alphabet pages
  have hz : ∀ i g, i ≠ 0 → (fileResolver (numbered 1 (uniObjs alphabet pages))).resolve1 (.ref i g) = .ok ((dictGet (numbered 1 (uniObjs alphabet pages)) i).getD .null) := fun i g hi => if_neg hi
  obtain ⟨f, f1, f2⟩ := uni_built S hb alphabet hl (fileResolver (numbered 1 (uniObjs alphabet pages))) (fileResolver_direct _) (2 * pages.length + 4)
    (by rw [hz _ _ (by omega), g2]; rfl) (by rw [hz _ _ (by omega), g3]; rfl) (by rw [hz _ _ (by omega), g4]; rfl)
  refine ⟨f, ⟨2, _, f1⟩, lines_file S hb opts _ (uniObjs_writable alphabet pages) _ _ _ g1 2 f f1 ?_ maxpages hmax hne⟩
  rw [List.forall₂_map_left_iff, List.forall₂_map_right_iff, List.forall₂_same]
  intro lines hlines
  refine ⟨?_, ?_⟩
  · rw [List.forall₂_map_left_iff, List.forall₂_map_right_iff, List.forall₂_same]
    exact fun line h => uni_placed hl f2 opts.ignoreBad line (hp lines hlines line h).2
  · intro s hs
    obtain ⟨line, h, rfl⟩ := List.mem_map.1 hs
    obtain ⟨h1, h2⟩ := hp lines hlines line h
    cases line with
    | nil => exact absurd rfl h1
    | cons c cs => exact ⟨_, _, _, by simp, f2.decode (c :: cs) fun x hx => by have := h2 x hx; omega⟩

/-- The JSON document of two pages, of which the first has two lines. -/
example : ∃ f N, ∀ fuel ≥ N, ∃ file js, convertJson (sampleEnv (pstr "FontName")) sampleSetup {} fuel (writeText helvetica [[asc "Hello", asc "Wor"], [asc "ld"]]) = (file, none) ∧
    JsonText file (.obj [(pstr "pages", .arr js)]) ∧
    List.Forall₂ (fun x j => LinesJson (sampleEnv (pstr "FontName")) f x.2 x.1 j) [([pstr "Hello", pstr "Wor"], 0), ([pstr "ld"], 1)] js := by
  have ha : asked ({} : Options).pagenos 0 [[pstr "Hello", pstr "Wor"], [pstr "ld"]] = [[pstr "Hello", pstr "Wor"], [pstr "ld"]] := by simp [asked, Wanted]
  obtain ⟨f, _, outs, _, N, h⟩ := written_lines sampleSetup sample_furnished {} [[asc "Hello", asc "Wor"], [asc "ld"]] [[pstr "Hello", pstr "Wor"], [pstr "ld"]] (by decide)
    (.cons (.cons ⟨(pstr "Hello").map fun c => [c], by decide +kernel, rfl⟩ (.cons ⟨(pstr "Wor").map fun c => [c], by decide +kernel, rfl⟩ .nil))
      (.cons (.cons ⟨(pstr "ld").map fun c => [c], by decide +kernel, rfl⟩ .nil) .nil)) 0 rfl (by rw [ha]; simp)
  refine ⟨f, N, fun fuel hf => ?_⟩
  have := (h fuel hf).2.json _ sampleEnv_ok ⟨by simp [sampleEnv], by intro p hp; rw [List.mem_singleton.1 hp]; decide⟩ (by rw [ha]; decide)
  rw [ha] at this
  exact this

/-- The fonts and lines that XML and HTML can carry. -/
example (f : Font) : XmlFont (sampleEnv (pstr "FontName")) f ∧ (∀ c ∈ pstr "Hello", xmlChar c = true) ∧ NoMarkup (pstr "Hello") := by
  refine ⟨⟨?_, by simp [sampleEnv], ?_⟩, by decide, ?_⟩
  · intro p hp
    rw [List.mem_singleton.1 hp]
    exact ⟨xmlName_dec (n := pstr "FontName") (by decide), _, plain_value (pstr "Arial") (by decide)⟩
  · intro p hp
    rw [List.mem_singleton.1 hp]
    show pstr "FontName" ∉ _
    decide
  · unfold NoMarkup
    decide

end Pdf

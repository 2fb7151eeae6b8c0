import Verif.Spec.Failure
import Verif.Props.Outputs
import Verif.Props.TextFile
/-! C99: what a conversion that ends with an exception leaves in its file. -/

namespace Pdf
open Spec

theorem pages_show (pages : List LtPage) : List.Forall₂ PageShows pages (pages.map fun p => textItems p.items) := by
  rw [List.forall₂_map_right_iff, List.forall₂_same]
  exact fun p _ => (pageShows_iff p _).2 rfl

theorem textFile_numbered (pages : List LtPage) : ∀ num, (∀ (i : Nat) (p : LtPage), pages[i]? = some p → p.num = num + i) →
    textFile pages = textOf num (pages.map fun p => textItems p.items) := by
  induction pages with
  | nil => intro num _; rfl
  | cons p l ih =>
    intro num h
    have h0 : p.num = num := h 0 p rfl
    have := ih (num + 1) fun i q hq => by rw [h (i + 1) q (by simpa using hq)]; omega
    simp only [textFile, List.flatMap_cons, List.map_cons, textOf] at this ⊢
    rw [this, textPage, h0]

theorem ofList_append_one (l : List XNode) (n : XNode) : ∀ level, xWrite level (XBody.ofList (l ++ [n])) = xWrite level (XBody.ofList l) ++ xWriteNode level n := by
  intro level
  induction l with
  | nil => simp [XBody.ofList, xWrite]
  | cons a l ih => simp only [List.cons_append, XBody.ofList, xWrite, ih, List.append_assoc]

/-- The file with an exception, and the missing end tags, are the file without. -/
theorem xmlCut_closed (env : ConvEnv) (codec : PyStr) (pages : List LtPage) (begun : Option LtPage) :
    xmlCut env codec pages begun ++ missingTags begun = xmlFile env codec (pages ++ begun.toList) := by
  have e1 : pstr "</pages>\n" = [0x3c, 0x2f] ++ pstr "pages" ++ [0x3e] ++ [0x0a] := by decide
  have e2 : pstr " </page>\n</pages>\n" = xIndent 1 ++ ([0x3c, 0x2f] ++ pstr "page" ++ [0x3e]) ++ [0x0a] ++ ([0x3c, 0x2f] ++ pstr "pages" ++ [0x3e] ++ [0x0a]) := by decide
  have e0 : xIndent 0 = [] := rfl
  cases begun with
  | none =>
    simp only [xmlCut, xmlFile, xFile, xmlCalls, missingTags, xStarted, xWrite, xWriteNode, Option.toList_none, List.append_nil, e1, e0]
    simp only [Bool.false_eq_true, if_false, List.append_assoc, List.nil_append, List.append_nil, Nat.zero_add]
  | some p =>
    simp only [xmlCut, xmlFile, xFile, xmlCalls, missingTags, xStarted, xWrite, xWriteNode, Option.toList_some, List.map_append, List.map_cons, List.map_nil,
      ofList_append_one, e2, e0, xPage]
    simp only [Bool.false_eq_true, if_false, List.append_assoc, List.nil_append, List.append_nil, Nat.zero_add, Nat.reduceAdd]

theorem missing_indent (begun : Option LtPage) : ∃ n r, missingTags begun = xIndent n ++ 0x3c :: 0x2f :: r := by
  cases begun with
  | none => exact ⟨0, pstr "pages>\n", by decide⟩
  | some p => exact ⟨1, pstr "page>\n</pages>\n", by simp only [missingTags]; decide⟩

/-- Without its last end tags a document is not well-formed. -/
theorem cut_not_content {body : PyStr} {begun : Option LtPage} {ev' : List XmlEvent} (h : XmlContent (body ++ missingTags begun) ev') (ev : List XmlEvent) : ¬ XmlContent body ev := by
  intro hb
  obtain ⟨n, r, hr⟩ := missing_indent begun
  have h1 := xmlContent_append hb (xmlContent_spaces n)
  have := xmlContent_unique h1 h (r := 0x3c :: 0x2f :: r) (r' := []) (.inr ⟨r, rfl⟩) (.inl rfl) (by rw [hr]; simp)
  exact absurd this.2.2 (by simp)

/-- **C99.** What is left in the files when a conversion ends with an exception: the pages before, complete, and the items of the page in which the
exception came, up to it. The JSON and YAML files are whole documents; of the XML file only the last end tags are missing. -/
theorem failed_conversion (S : Setup) (opts : Options) (fuel : Nat) (data : Bytes) (e : PyErr) (he : (deliver S opts fuel data).error = some e) :
    Leaves S opts fuel data (deliver S opts fuel data).pages (deliver S opts fuel data).started e where
  text := by
    refine ⟨_, textStarted (deliver S opts fuel data).started, pages_show _, ?_, ?_⟩
    · cases hs : (deliver S opts fuel data).started with
      | none => exact .none
      | some p =>
        have hn : p.num = (deliver S opts fuel data).pages.length := deliver_numbers S opts fuel data _ p (by rw [hs]; simp)
        rw [← hn]
        exact .some ((pageShows_iff p _).2 rfl)
    · rw [convertText_deliver, he, textFile_numbered _ 0]
      intro i p hp
      have := deliver_numbers S opts fuel data i p (by rw [List.getElem?_append_left (List.getElem?_eq_some_iff.1 hp).1]; exact hp)
      omega
  json env henv hi := by
    obtain ⟨js, h1, h2, _⟩ := json_document_partial env henv _ hi
    exact ⟨_, js, by simp only [convertJson, he], h1, h2⟩
  yaml env henv hi := by
    obtain ⟨vs, h1, h2, _⟩ := yaml_document_partial env henv _ hi
    exact ⟨_, vs, by simp only [convertYaml, he], h1, h2⟩
  xml env codec henv hi := by
    obtain ⟨body, ev, h1, h2, _, _, tags, h3, h4⟩ := xml_document_partial env henv codec _ hi _ (pages_show _)
    rw [← xmlCut_closed] at h1
    have hx : ∃ cut, xmlCut env codec (deliver S opts fuel data).pages (deliver S opts fuel data).started = xHeader codec ++ cut := ⟨_, rfl⟩
    obtain ⟨cut, hx⟩ := hx
    rw [hx, List.append_assoc] at h1
    rw [← List.append_cancel_left h1] at h2
    refine ⟨cut, by simp only [convertXml, he, hx], cut_not_content h2, ev, tags, h2, h3, h4⟩

/-- **C99.** If there is no exception, no page is left unfinished. -/
theorem finished_conversion (S : Setup) (opts : Options) (fuel : Nat) (data : Bytes) (h : (deliver S opts fuel data).error = none) :
    (deliver S opts fuel data).started = none ∧ (convertText S opts fuel data).2 = none :=
  ⟨deliver_started S opts fuel data h, by rw [convertText_deliver]; exact h⟩

/-- **C99.** If the document cannot be opened, or its text may not be extracted, there are no pages in the files: the text file is empty. -/
theorem unopened_conversion (S : Setup) (opts : Options) (fuel : Nat) (data : Bytes) (h : ∀ O, openDocument S opts.password opts.caching fuel data = .ok O →
    refused opts.checkExtractable O.cipher = true) : (deliver S opts fuel data).pages = [] ∧ (deliver S opts fuel data).started = none ∧
      (∃ e, (deliver S opts fuel data).error = some e) ∧ (convertText S opts fuel data).1 = [] := by
  have key : (deliver S opts fuel data).pages = [] ∧ (deliver S opts fuel data).started = none ∧ ∃ e, (deliver S opts fuel data).error = some e := by
    unfold deliver
    rcases ho : openDocument S opts.password opts.caching fuel data with e | O
    · exact ⟨rfl, rfl, e, rfl⟩
    · dsimp only
      rw [if_pos (h O ho)]
      exact ⟨rfl, rfl, _, rfl⟩
  refine ⟨key.1, key.2.1, key.2.2, ?_⟩
  rw [convertText_deliver, key.1, key.2.1]
  rfl

theorem endTags_indent {t : PyStr} {names : List PyStr} (h : EndTags t names) : ∃ n r, t = xIndent n ++ 0x3c :: 0x2f :: r := by
  cases h with
  | html => exact ⟨0, pstr "html>", by decide⟩
  | @cons n name t names h => exact ⟨n, name ++ pstr ">\n" ++ t, by simp [xIndent, pstr]⟩

/-- **C100.** What a conversion to HTML leaves in its file: the pages up to the first item that the converter cannot write, if there is one, otherwise
the pages that the interpreter delivers and the one that it has begun; without its last end tags if there was an exception, so that the file is
not well-formed then. -/
theorem html_conversion (S : Setup) (opts : Options) (fuel : Nat) (data : Bytes) (env : HtmlEnv) (codec : PyStr) (henv : HtmlOk env) (hc : ∃ v, XmlValue codec v)
    (hi : ∀ p ∈ (deliver S opts fuel data).pages ++ (deliver S opts fuel data).started.toList, ∀ i ∈ p.items, HtmlItem env i) :
    HtmlLeaves env codec ((deliver S opts fuel data).pages ++ (deliver S opts fuel data).started.toList) (deliver S opts fuel data).error
      (convertHtml env codec S opts fuel data).1 (convertHtml env codec S opts fuel data).2 := by
  unfold convertHtml
  dsimp only
  have hb := deliver_started S opts fuel data
  generalize deliver S opts fuel data = D at *
  obtain ⟨shown, rest, names, h1, h2, h3, h4⟩ := htmlRun_closed env codec D.pages D.started D.error hb
  have hr : ∀ p ∈ shown, ∀ i ∈ p.items, HtmlItem env i ∧ ¬ Refused env i := by
    intro p hp i hm
    refine ⟨shown_items h1 hi p hp i hm, fun hr => ?_⟩
    have := (html_refused env codec shown).2 ⟨p, hp, i, hm, hr⟩
    rw [h2] at this
    cases this
  obtain ⟨file, ev, g1, g2, _, g3, tags, g4, g5⟩ := html_document_partial env henv codec hc shown hr _ (pages_show shown)
  rw [h2] at g1
  obtain rfl := Option.some.inj g1
  refine ⟨⟨shown, _, rest, ev, tags, h1, g2, pages_show shown, g3, g4, g5, h3, fun h => ⟨names, h4 h⟩⟩, ?_⟩
  intro hd ev' hb'
  obtain ⟨n, r, e⟩ := endTags_indent (h4 hd)
  have k := xmlContent_append hb' (xmlContent_spaces n)
  have := xmlContent_unique k g2 (r := 0x3c :: 0x2f :: r) (r' := []) (.inr ⟨r, rfl⟩) (.inl rfl) (by rw [e]; simp)
  exact absurd this.2.2 (by simp)

/-- A file whose only page has no `Contents`: the page is begun, and then there is an exception. The XML file is not well-formed. -/
theorem xml_cut_counterexample : ∃ body, convertXml (sampleEnv (pstr "FontName")) (pstr "utf-8") { sampleSetup with glyphs := fun _ => none, tables := [], metrics := fun _ => none } {}
    60 emptyPageFile = (xHeader (pstr "utf-8") ++ body, some .psEOF) ∧ ∀ ev, ¬ XmlContent body ev := by
  have he : (deliver { sampleSetup with glyphs := fun _ => none, tables := [], metrics := fun _ => none } {} 60 emptyPageFile).error = some .psEOF := by decide +kernel
  have hp : (deliver { sampleSetup with glyphs := fun _ => none, tables := [], metrics := fun _ => none } {} 60 emptyPageFile).pages.length = 0 := by decide +kernel
  have hs : (deliver { sampleSetup with glyphs := fun _ => none, tables := [], metrics := fun _ => none } {} 60 emptyPageFile).started.map (fun p => p.items.length) = some 0 := by
    decide +kernel
  have hi := (failed_conversion _ _ _ _ _ he).xml (sampleEnv (pstr "FontName")) (pstr "utf-8") sampleEnv_xml
  generalize deliver { sampleSetup with glyphs := fun _ => none, tables := [], metrics := fun _ => none } {} 60 emptyPageFile = D at *
  obtain ⟨pages, started, error⟩ := D
  obtain rfl : pages = [] := List.eq_nil_of_length_eq_zero hp
  cases started with
  | none => cases hs
  | some q =>
    have hq : q.items = [] := List.eq_nil_of_length_eq_zero (Option.some.inj hs)
    obtain ⟨body, h1, h2, _⟩ := hi (by
      intro p hp i hit
      obtain rfl : p = q := by simpa using hp
      rw [hq] at hit
      cases hit)
    exact ⟨body, h1, h2⟩

/-- The same file converted to HTML. -/
theorem html_cut_counterexample : (convertHtml sampleHtml (pstr "utf-8") { sampleSetup with glyphs := fun _ => none, tables := [], metrics := fun _ => none } {}
    60 emptyPageFile).2 = .raised .psEOF ∧ ∀ ev, ¬ XmlContent (convertHtml sampleHtml (pstr "utf-8")
      { sampleSetup with glyphs := fun _ => none, tables := [], metrics := fun _ => none } {} 60 emptyPageFile).1 ev := by
  have he : (deliver { sampleSetup with glyphs := fun _ => none, tables := [], metrics := fun _ => none } {} 60 emptyPageFile).error = some .psEOF := by decide +kernel
  have hp : (deliver { sampleSetup with glyphs := fun _ => none, tables := [], metrics := fun _ => none } {} 60 emptyPageFile).pages.length = 0 := by decide +kernel
  have hs : (deliver { sampleSetup with glyphs := fun _ => none, tables := [], metrics := fun _ => none } {} 60 emptyPageFile).started.map (fun p => p.items.length) = some 0 := by
    decide +kernel
  have hi := html_conversion { sampleSetup with glyphs := fun _ => none, tables := [], metrics := fun _ => none } {} 60 emptyPageFile sampleHtml (pstr "utf-8") sampleHtml_ok
    (val_lit _ (by decide))
  have hr : (convertHtml sampleHtml (pstr "utf-8") { sampleSetup with glyphs := fun _ => none, tables := [], metrics := fun _ => none } {}
    60 emptyPageFile).2 = .raised .psEOF := by
    unfold convertHtml
    dsimp only
    generalize deliver { sampleSetup with glyphs := fun _ => none, tables := [], metrics := fun _ => none } {} 60 emptyPageFile = D at *
    obtain ⟨pages, started, error⟩ := D
    obtain rfl : pages = [] := List.eq_nil_of_length_eq_zero hp
    cases started with
    | none => cases hs
    | some q =>
      have hq : q.items = [] := List.eq_nil_of_length_eq_zero (Option.some.inj hs)
      subst he
      simp [htmlRun, hPagesText, hq, hItemsText, HtmlEnd.of]
  refine ⟨hr, (hi ?_).cut (by rw [hr]; simp)⟩
  intro p hp' i hit
  generalize deliver { sampleSetup with glyphs := fun _ => none, tables := [], metrics := fun _ => none } {} 60 emptyPageFile = D at *
  obtain ⟨pages, started, error⟩ := D
  obtain rfl : pages = [] := List.eq_nil_of_length_eq_zero hp
  cases started with
  | none => cases hs
  | some q =>
    have hq : q.items = [] := List.eq_nil_of_length_eq_zero (Option.some.inj hs)
    obtain rfl : p = q := by simpa using hp'
    rw [hq] at hit
    cases hit

/-- The pages that are shown, for a page with an xobject with a text, a single point, and another text: the second text is not written. -/
example (t t' : TextBlock) (c : Curve) (hc : CurveRefused c) (ht : ∀ cb ∈ t.blocks, ¬ BlockRefused sampleHtml cb) (s r : Obj) (b : Bbox) (m : Mat) (n : Nat) (w h : ℚ) :
    HtmlShown sampleHtml [⟨n, w, h, [.xobj s b r m [.text t, .curve c], .text t']⟩] none [⟨n, w, h, [.xobj s b r m [.text t]]⟩] .refused := by
  refine .refused (before := []) (after := []) rfl (by simp) (.mk (before := []) (i := .xobj s b r m [.text t, .curve c]) (after := [.text t']) (by simp)
    (.xobj (before := [.text t]) (l := []) (after := []) ?_ (.curve hc)))
  intro x hx hr
  obtain rfl := List.mem_singleton.1 hx
  cases hr with
  | weight h1 h2 => exact ht _ h1 (.inl h2)
  | color h1 h2 => exact ht _ h1 (.inr h2)

/-! ### The pages that are shown are determined by the document -/

theorem split_unique {α : Type} {P : α → Prop} : ∀ {a a' b b' : List α} {x x' : α}, a ++ x :: b = a' ++ x' :: b' → (∀ y ∈ a, ¬ P y) → P x →
    (∀ y ∈ a', ¬ P y) → P x' → a = a' ∧ x = x'
  | [], [], _, _, _, _, h, _, _, _, _ => ⟨rfl, (List.cons.inj h).1⟩
  | [], y :: a', _, _, _, _, h, _, hx, ha', _ => by
    obtain rfl := (List.cons.inj h).1
    exact absurd hx (ha' _ List.mem_cons_self)
  | y :: a, [], _, _, _, _, h, ha, _, _, hx' => by
    obtain rfl := (List.cons.inj h).1
    exact absurd hx' (ha _ List.mem_cons_self)
  | y :: a, y' :: a', _, _, _, _, h, ha, hx, ha', hx' => by
    obtain ⟨rfl, hh⟩ := List.cons.inj h
    obtain ⟨rfl, h2⟩ := split_unique hh (fun z hz => ha z (List.mem_cons_of_mem _ hz)) hx (fun z hz => ha' z (List.mem_cons_of_mem _ hz)) hx'
    exact ⟨rfl, h2⟩

theorem cut_unique {env : HtmlEnv} {i : Item} {l : List Item} (h : Cut env i l) : ∀ {l'}, Cut env i l' → l = l' := by
  induction h with
  | curve => intro l' h'; cases h'; rfl
  | text h1 h2 h3 =>
    intro l' h'
    cases h' with
    | text k1 k2 k3 =>
      rw [h1] at k1
      obtain ⟨rfl, _⟩ := split_unique k1 h2 h3 k2 k3
      rfl
  | @xobj s b r m before i after l h1 h2 ih =>
    intro l' h'
    generalize hc : before ++ i :: after = cs at h'
    cases h' with
    | @xobj _ _ _ _ before' i' after' l'' k1 k2 =>
      obtain ⟨rfl, rfl⟩ := split_unique hc h1 (cut_refused h2) k1 (cut_refused k2)
      rw [ih k2]

theorem pageCut_unique {env : HtmlEnv} {p q q' : LtPage} (h : PageCut env p q) (h' : PageCut env p q') : q = q' := by
  cases h with
  | @mk num w h before i after l h1 h2 =>
    generalize hc : before ++ i :: after = cs at h'
    cases h' with
    | @mk _ _ _ before' i' after' l' k1 k2 =>
      obtain ⟨rfl, rfl⟩ := split_unique hc h1 (cut_refused h2) k1 (cut_refused k2)
      rw [cut_unique h2 k2]

theorem pageCut_refused {env : HtmlEnv} {p q : LtPage} (h : PageCut env p q) : ∃ i ∈ p.items, Refused env i := by
  cases h with
  | mk _ h => exact ⟨_, List.mem_append_right _ List.mem_cons_self, cut_refused h⟩

/-- **C100.** Which pages are shown, and how the conversion ends, is determined by what the interpreter delivers. -/
theorem htmlShown_unique {env : HtmlEnv} {all shown shown' : List LtPage} {e : Option PyErr} {r r' : HtmlEnd} (h : HtmlShown env all e shown r)
    (h' : HtmlShown env all e shown' r') : shown = shown' ∧ r = r' := by
  have no : ∀ {before p after p'}, all = before ++ p :: after → PageCut env p p' → ¬ ∀ p ∈ all, ∀ i ∈ p.items, ¬ Refused env i := by
    intro before p after p' h1 h2 h3
    obtain ⟨i, hi, hr⟩ := pageCut_refused h2
    exact h3 p (by rw [h1]; simp) i hi hr
  cases h with
  | done k1 k2 =>
    cases h' with
    | done => exact ⟨rfl, rfl⟩
    | raised _ k => rw [k2] at k; cases k
    | refused j1 _ j3 => exact absurd k1 (no j1 j3)
  | raised k1 k2 =>
    cases h' with
    | done _ k => rw [k2] at k; cases k
    | raised _ k => rw [k2] at k; cases k; exact ⟨rfl, rfl⟩
    | refused j1 _ j3 => exact absurd k1 (no j1 j3)
  | refused k1 k2 k3 =>
    cases h' with
    | done j => exact absurd j (no k1 k3)
    | raised j => exact absurd j (no k1 k3)
    | refused j1 j2 j3 =>
      rw [k1] at j1
      obtain ⟨rfl, rfl⟩ := split_unique (P := fun p => ∃ i ∈ p.items, Refused env i) j1 (by simpa using k2) (pageCut_refused k3) (by simpa using j2) (pageCut_refused j3)
      rw [pageCut_unique k3 j3]
      exact ⟨rfl, rfl⟩

end Pdf

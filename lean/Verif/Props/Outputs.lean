import Verif.Spec.Outputs
import Verif.Props.EncryptedFile
import Verif.Props.ConvXml
import Verif.Props.ConvYaml
import Verif.Props.HtmlCut
/-! C96: all converters get the same pages. C97: what a conversion that fails has written. -/

namespace Pdf
open Spec

/-! ### The text converter writes what is delivered -/

/-- What is written of a page that was begun (converters/text.py:39-41). -/
def textStarted : Option LtPage → PyStr
  | none => []
  | some p => pstr "========== [ page " ++ numText p.num ++ pstr " ] ==========\n" ++ textItems p.items

theorem textPages_deliver (E : Env1) (fuel : Nat) (ig : Bool) (ps : List Page) : ∀ num e,
    textPages E fuel ig num ps e = (textFile (deliverPages E fuel ig num ps e).pages ++ textStarted (deliverPages E fuel ig num ps e).started,
      (deliverPages E fuel ig num ps e).error) := by
  induction ps with
  | nil => intro num e; cases e <;> rfl
  | cons p ps ih =>
    intro num e
    simp only [textPages, deliverPages]
    rcases hg : pageGeometry p.mediabox p.rotate with x | ⟨ctm, w, h⟩
    · rfl
    dsimp only
    rcases hs : prepState E ctm p.resources ig with x | s
    · rfl
    dsimp only
    rcases hr : (run E fuel p.contents s).1 with ⟨items, _ | x⟩
    · simp only [ih, textFile, List.flatMap_cons, List.append_assoc]
    · rfl

theorem convertText_deliver (S : Setup) (opts : Options) (fuel : Nat) (data : Bytes) :
    convertText S opts fuel data = (textFile (deliver S opts fuel data).pages ++ textStarted (deliver S opts fuel data).started, (deliver S opts fuel data).error) := by
  unfold convertText deliver
  rcases ho : openDocument S opts.password opts.caching fuel data with x | O
  · rfl
  dsimp only
  by_cases hr : refused opts.checkExtractable O.cipher = true
  · rw [if_pos hr, if_pos hr]; rfl
  · rw [if_neg hr, if_neg hr]
    exact textPages_deliver _ _ _ _ _ _

/-- A page is begun and not finished only by an exception. -/
theorem deliverPages_started (E : Env1) (fuel : Nat) (ig : Bool) (ps : List Page) : ∀ num e,
    (deliverPages E fuel ig num ps e).error = none → (deliverPages E fuel ig num ps e).started = none := by
  induction ps with
  | nil => intro num e _; rfl
  | cons p ps ih =>
    intro num e
    simp only [deliverPages]
    split
    · simp
    · split
      · simp
      · split
        · simp
        · exact ih _ _

theorem deliver_started (S : Setup) (opts : Options) (fuel : Nat) (data : Bytes) (h : (deliver S opts fuel data).error = none) :
    (deliver S opts fuel data).started = none := by
  revert h
  unfold deliver
  split
  · simp
  · split
    · simp
    · exact deliverPages_started _ _ _ _ _ _

/-- The pages are numbered. -/
theorem deliverPages_numbers (E : Env1) (fuel : Nat) (ig : Bool) (ps : List Page) : ∀ num e (i : Nat) (p : LtPage),
    ((deliverPages E fuel ig num ps e).pages ++ (deliverPages E fuel ig num ps e).started.toList)[i]? = some p → p.num = num + i := by
  induction ps with
  | nil => intro num e i p h; simp [deliverPages] at h
  | cons q ps ih =>
    intro num e i p
    simp only [deliverPages]
    split
    · intro h; simp at h
    · split
      · intro h; simp at h
      · split
        · intro h
          cases i with
          | zero => simp at h; rw [← h]; rfl
          | succ i => simp at h
        · intro h
          cases i with
          | zero => simp at h; rw [← h]; rfl
          | succ i =>
            rw [List.cons_append, List.getElem?_cons_succ] at h
            rw [ih _ _ i p h]; omega

theorem deliver_numbers (S : Setup) (opts : Options) (fuel : Nat) (data : Bytes) (i : Nat) (p : LtPage)
    (h : ((deliver S opts fuel data).pages ++ (deliver S opts fuel data).started.toList)[i]? = some p) : p.num = i := by
  revert h
  unfold deliver
  split
  · intro h; simp at h
  · split
    · intro h; simp at h
    · intro h
      rw [deliverPages_numbers _ _ _ _ _ _ i p h]; omega

/-! ### The pages of a document -/

/-- With this fuel the page is delivered with these items. -/
def Delivers (S : Setup) (R : Resolver) (ignoreBad : Bool) (n : Nat) (p : Page) (out : ℚ × ℚ × List Item) : Prop :=
  ∃ ctm s s', pageGeometry p.mediabox p.rotate = .ok (ctm, out.1, out.2.1) ∧ prepState (S.env1 R n) ctm p.resources ignoreBad = .ok s ∧
    run (S.env1 R n) n p.contents s = ((out.2.2, none), s')

/-- The page that is made of a size and items. -/
def pageWith (num : Nat) (out : ℚ × ℚ × List Item) : LtPage := ⟨num, out.1, out.2.1, out.2.2⟩

/-- The pages, numbered. -/
def pagesWith : (num : Nat) → List (ℚ × ℚ × List Item) → List LtPage
  | _, [] => []
  | num, out :: outs => pageWith num out :: pagesWith (num + 1) outs

theorem deliverPages_ok {S : Setup} {R : Resolver} {ignoreBad : Bool} {n : Nat} {ps : List Page} {outs : List (ℚ × ℚ × List Item)}
    (h : List.Forall₂ (Delivers S R ignoreBad n) ps outs) : ∀ num, (outs ≠ [] ∨ num ≠ 0) →
      deliverPages (S.env1 R n) n ignoreBad num ps none = { pages := pagesWith num outs } := by
  induction h with
  | nil =>
    intro num hn
    simp only [deliverPages, lastError, pagesWith]
    rw [if_neg (by simpa using hn)]
  | cons h1 _ ih =>
    intro num _
    obtain ⟨ctm, s, s', h2, h3, h4⟩ := h1
    simp only [deliverPages, h2, h3, h4, ih (num + 1) (.inr (by omega)), pagesWith]
    rfl

theorem page_delivers {S : Setup} (hb : 0 < S.bufsiz) {objs : List (Int × Obj)} {ignoreBad : Bool} {p : Page} {leaf : Int × List Dict}
    {x : Sheet} (hp : PageOf (fileResolver objs) p leaf) (hx : SheetOf S ignoreBad (fileResolver objs) leaf.2 x) :
    ∃ out, (Evt fun n => Delivers S (fileResolver objs) ignoreBad n p out) ∧ ∀ num, PageIs num x (pageWith num out) := by
  obtain ⟨ht, o, a, b, c, d, x0, y0, x1, y1, h1, h2, ha, hb', hc, hd, hw, hh⟩ := hx
  obtain ⟨E, res, contents, c', h3, h4, h5, h6, h7, h8, h9⟩ := ht.shows
  have hgeo : ∃ ctm, pageGeometry p.mediabox p.rotate = .ok (ctm, x.width, x.height) := by
    obtain ⟨o', h10, h11⟩ := hp.media
    rw [h1] at h10
    cases h10
    rw [h2] at h11
    rw [← Except.ok.inj h11]
    simp only [pageGeometry, Obj.num, ha, hb', hc, hd, bind, Except.bind, hw, hh]
    exact ⟨_, rfl⟩
  obtain ⟨ctm, hgeo⟩ := hgeo
  have hres : p.resources = .dict res := by
    have := hp.resources
    rw [h4] at this
    exact (Except.ok.inj this).symm
  have hcont : p.contents = streamsOf c' := by
    have := hp.contents
    rw [h6] at this
    obtain ⟨c2, h10, h11⟩ := this
    rw [h7] at h10
    cases h10
    exact h11
  obtain ⟨N, hN⟩ := well_formed_page E (by rw [h3.resolver]; intro d; rfl) res h5 ignoreBad _ h8 x.text h9
  obtain ⟨s, items, s', g1, g2, g3⟩ := hN N (Nat.le_refl _) ctm
  refine ⟨(x.width, x.height, items), ?_, fun num => ⟨rfl, rfl, rfl, g3 _ _ _⟩⟩
  refine ((prepState_limit h3 g1).and (run_limit hb h3 N id (Evt.ge N) _ _ _ _ g2)).mono fun n hn => ?_
  exact ⟨ctm, s, s', hgeo, hres ▸ hn.1, hcont ▸ hn.2⟩

theorem forall2_choose {α β γ : Type} {P : α → γ → Prop} {Q : β → γ → Prop} {a : List α} {b : List β} (h : List.Forall₂ (fun x y => ∃ z, P x z ∧ Q y z) a b) :
    ∃ c, List.Forall₂ P a c ∧ List.Forall₂ Q b c := by
  induction h with
  | nil => exact ⟨[], .nil, .nil⟩
  | cons h _ ih =>
    obtain ⟨z, h1, h2⟩ := h
    obtain ⟨c, h3, h4⟩ := ih
    exact ⟨z :: c, .cons h1 h3, .cons h2 h4⟩

theorem pagesAre_with {l : List Sheet} {outs : List (ℚ × ℚ × List Item)} (h : List.Forall₂ (fun x out => ∀ num, PageIs num x (pageWith num out)) l outs) :
    ∀ num, PagesAre num l (pagesWith num outs) := by
  induction h with
  | nil => intro num; exact .nil
  | cons h _ ih => intro num; exact .cons (h num) (ih _)

/-- A document that is opened with these objects and this catalog is delivered, whatever is said about its pages. -/
theorem opened_outs {α : Type} (S : Setup) (data : Bytes) (opts : Options) (Is : Resolver → List Dict → α → Prop) (Q : α → ℚ × ℚ × List Item → Prop) (xs : List α)
    {objs : List (Int × Obj)} {catalog : List (Key × Obj)} {o : Obj} {T : PageTree} (ho : dictGet catalog (nm "Pages") = some o) (hT : IsTree (fileResolver objs) o T)
    (ht : List.Forall₂ (fun leaf x => Is (fileResolver objs) leaf.2 x) (T.leaves [catalog]) xs)
    (htext : ∀ ds x, Is (fileResolver objs) ds x → ∃ t, PageText S (fileResolver objs) opts.ignoreBad ds t)
    (hQ : ∀ p leaf x, PageOf (fileResolver objs) p leaf → Is (fileResolver objs) leaf.2 x →
      ∃ out, (Evt fun n => Delivers S (fileResolver objs) opts.ignoreBad n p out) ∧ Q x out)
    (hopen : Evt fun n => ∃ O, openDocument S opts.password opts.caching n data = .ok O ∧ refused opts.checkExtractable O.cipher = false ∧ O.catalog = catalog ∧
      O.resolver opts.caching n = fileResolver objs)
    (maxpages : Nat) (hmax : opts.maxpages = maxpages) (hne : asked opts.pagenos maxpages xs ≠ []) :
    ∃ outs, List.Forall₂ Q (asked opts.pagenos maxpages xs) outs ∧ ∃ N, ∀ fuel ≥ N, deliver S opts fuel data = { pages := pagesWith 0 outs } := by
  have hd : ∀ o, (∀ i g, o ≠ .ref i g) → (fileResolver objs).resolve1 o = .ok o := by
    intro o ho
    cases o <;> first | rfl | exact absurd rfl (ho _ _)
  have hleaf : ∀ leaf ∈ T.leaves [catalog], ∃ t, PageText S (fileResolver objs) opts.ignoreBad leaf.2 t := by
    intro leaf hl
    obtain ⟨t, ht⟩ := forall2_left ht hl
    exact htext _ _ ht
  have htne : xs ≠ [] := by rintro rfl; exact hne rfl
  obtain ⟨N, ps, g1, g2⟩ := pages_of_tree (fileResolver objs) hd catalog o T ho hT (by intro e; rw [e] at ht; cases ht; exact htne rfl)
    (fun leaf hl => (hleaf leaf hl).choose_spec.attributes) (fun leaf hl => by
      obtain ⟨t, ht⟩ := hleaf leaf hl
      obtain ⟨o, _, _, _, _, hm, _⟩ := ht.box
      rw [hm]; simp)
  obtain ⟨outs, o1, o2⟩ := forall2_choose (forall2_comp g2 ht fun p leaf x hp hx => hQ p leaf x hp hx)
  have hsel2 := select_forall2 opts.pagenos maxpages o2 0
  have hshow : (selectFrom opts.pagenos maxpages 0 xs none).1 = asked opts.pagenos maxpages xs := select_exact opts.pagenos maxpages xs none
  rw [hshow] at hsel2
  refine ⟨_, hsel2.1, ?_⟩
  refine (hopen.and ((evt_forall2 o1).and (Evt.ge N))).mono fun n hn => ?_
  obtain ⟨⟨O, k1, k0, k2, k3⟩, k4, k5⟩ := hn
  have hsel := select_forall2 opts.pagenos maxpages k4 0
  unfold deliver selectPages
  rw [k1]
  dsimp only
  rw [k0, k3, k2, g1 _ n k5, hmax]
  dsimp only
  rw [hsel.2]
  refine deliverPages_ok hsel.1 0 (.inl ?_)
  intro e
  rw [e] at hsel2
  cases h : asked opts.pagenos maxpages xs with
  | nil => exact hne h
  | cons x l => rw [h] at hsel2; cases hsel2.1

/-- A document that is opened with these objects and this catalog is delivered. -/
theorem opened_pages (S : Setup) (hb : 0 < S.bufsiz) (data : Bytes) (opts : Options) (sheets : List Sheet) {objs : List (Int × Obj)} {catalog : List (Key × Obj)} {o : Obj}
    {T : PageTree} (ho : dictGet catalog (nm "Pages") = some o) (hT : IsTree (fileResolver objs) o T)
    (ht : List.Forall₂ (fun leaf x => SheetOf S opts.ignoreBad (fileResolver objs) leaf.2 x) (T.leaves [catalog]) sheets)
    (hopen : Evt fun n => ∃ O, openDocument S opts.password opts.caching n data = .ok O ∧ refused opts.checkExtractable O.cipher = false ∧ O.catalog = catalog ∧
      O.resolver opts.caching n = fileResolver objs)
    (maxpages : Nat) (hmax : opts.maxpages = maxpages) (hne : asked opts.pagenos maxpages sheets ≠ []) :
    ∃ pages, PagesAre 0 (asked opts.pagenos maxpages sheets) pages ∧ ∃ N, ∀ fuel ≥ N, deliver S opts fuel data = { pages := pages } := by
  obtain ⟨outs, h1, h2⟩ := opened_outs S data opts (SheetOf S opts.ignoreBad) (fun x out => ∀ num, PageIs num x (pageWith num out)) sheets ho hT ht
    (fun _ _ h => ⟨_, h.text⟩) (fun p leaf x hp hx => page_delivers hb hp hx) hopen maxpages hmax hne
  exact ⟨_, pagesAre_with h1 0, h2⟩

theorem pagesAre_shows {num : Nat} {l : List Sheet} {pages : List LtPage} (h : PagesAre num l pages) : List.Forall₂ PageShows pages (l.map Sheet.text) := by
  induction h with
  | nil => exact .nil
  | cons h _ ih => exact .cons h.text ih

theorem textFile_pages {num : Nat} {l : List Sheet} {pages : List LtPage} (h : PagesAre num l pages) : textFile pages = textOf num (l.map Sheet.text) := by
  induction h with
  | nil => rfl
  | @cons num x p l ps h _ ih =>
    have ht := (pageShows_iff _ _).1 h.text
    simp only [textFile, List.flatMap_cons, List.map_cons, textOf] at ih ⊢
    rw [ih, textPage, ← ht, h.num]

theorem delivered_converted {S : Setup} {opts : Options} {fuel : Nat} {data : Bytes} {sheets : List Sheet} {pages : List LtPage} (h : PagesAre 0 sheets pages)
    (hd : deliver S opts fuel data = { pages := pages }) : Converted S opts fuel data sheets pages where
  text := by
    rw [convertText_deliver, hd]
    simp [textStarted, textFile_pages h]
  json env henv hi := by
    obtain ⟨js, h1, h2, h0⟩ := json_document_partial env henv pages hi
    clear h0
    refine ⟨jsonFile env pages, js, by simp [convertJson, hd], h1, h2, ?_⟩
    · clear hd h1 hi
      generalize hn : 0 = num at h
      clear hn
      induction h generalizing js with
      | nil => cases h2; exact .nil
      | cons h3 _ ih =>
        cases h2 with
        | cons h4 h5 => exact .cons (((pageShows_iff _ _).1 h4.text).trans ((pageShows_iff _ _).1 h3.text).symm) (ih _ h5)
  yaml env henv hi := by
    obtain ⟨vs, h1, h2, _⟩ := yaml_document_partial env henv pages hi
    exact ⟨yamlFile env pages, vs, by simp [convertYaml, hd], h1, h2⟩
  xml env codec henv hi := by
    obtain ⟨body, ev, h1, h2, _, h3, _⟩ := xml_document_partial env henv codec pages hi _ (pagesAre_shows h)
    refine ⟨body, ev, ?_, h2, h3⟩
    unfold convertXml
    rw [hd, ← h1]
  html env codec henv hc hi := by
    obtain ⟨file, ev, h1, h2, _, h3, _⟩ := html_document_partial env henv codec hc pages hi _ (pagesAre_shows h)
    refine ⟨file, ev, ?_, h2, h3⟩
    unfold convertHtml
    rw [hd]
    exact htmlRun_done env codec pages (fun p hp i hi' => (hi p hp i hi').2) h1

/-- **C96.** All converters get the same pages of a document: those that are asked for, in the order of the page tree, numbered from 0, with the
size of their `MediaBox` and their text; and what they write has the same text. -/
theorem file_pages (S : Setup) (hb : 0 < S.bufsiz) (data : Bytes) (opts : Options) (sheets : List Sheet) (h : DocumentOf S data (SheetOf S opts.ignoreBad) sheets)
    (maxpages : Nat) (hmax : opts.maxpages = maxpages) (hne : asked opts.pagenos maxpages sheets ≠ []) :
    ∃ pages, PagesAre 0 (asked opts.pagenos maxpages sheets) pages ∧ ∃ N, ∀ fuel ≥ N, deliver S opts fuel data = { pages := pages } ∧
      Converted S opts fuel data (asked opts.pagenos maxpages sheets) pages := by
  obtain ⟨secs, objs, before, t, after, root, catalog, o, T, h1, h2, h3, h4, h5, h6, h7, h8, h9, h10, h11⟩ := h
  obtain ⟨pages, g1, N, g2⟩ := opened_pages S hb data opts sheets h9 h10 h11 ((document_open hb h1 h2 h3 h4 h5 h6 h7 h8 opts.password opts.caching).mono (by
    rintro n ⟨O, k1, k2, k3, k4⟩
    exact ⟨O, k1, by rw [k2]; rfl, k3, k4⟩)) maxpages hmax hne
  exact ⟨pages, g1, N, fun fuel hf => ⟨g2 fuel hf, delivered_converted g1 (g2 fuel hf)⟩⟩

/-- **C96**, for encrypted documents. -/
theorem encrypted_pages (S : Setup) (hb : 0 < S.bufsiz) (hm : ∀ x, (S.crypto.md5 x).length = 16) (hsha : ∀ x, (S.crypto.sha x).length = 32) (E : Bytes → Bytes → Bytes)
    (hc : BlockCipher E S.crypto.aes) (data : Bytes) (opts : Options) (pw : PyStr) (hpw : opts.password = some pw) (sheets : List Sheet) (P : Int)
    (h : LockedDocumentOf S E pw data P (SheetOf S opts.ignoreBad) sheets) (hx : opts.checkExtractable = false ∨ permission P 5 = true)
    (maxpages : Nat) (hmax : opts.maxpages = maxpages) (hne : asked opts.pagenos maxpages sheets ≠ []) :
    ∃ pages, PagesAre 0 (asked opts.pagenos maxpages sheets) pages ∧ ∃ N, ∀ fuel ≥ N, deliver S opts fuel data = { pages := pages } ∧
      Converted S opts fuel data (asked opts.pagenos maxpages sheets) pages := by
  obtain ⟨secs, objs, before, t, after, enc, param, idv, ids, L, root, catalog, o, T, h1, h2, h3, h4, h5, h6, h7, h8, h9, h10, h11, h12, h13, h14, h15⟩ := h
  obtain ⟨pages, g1, N, g2⟩ := opened_pages S hb data opts sheets h13 h14 h15 (by
    rw [hpw]
    refine (locked_open hb hm hsha hc h1 h2 h3 h4 h5 h6 h7 h8 h9 h10 h11 h12 opts.caching).mono ?_
    rintro n ⟨O, c, k1, k2, k3, k4, k5⟩
    refine ⟨O, k1, ?_, k4, k5⟩
    rw [k2, refused, cipher_extractable, k3]
    rcases hx with hx | hx <;> simp [hx]) maxpages hmax hne
  exact ⟨pages, g1, N, fun fuel hf => ⟨g2 fuel hf, delivered_converted g1 (g2 fuel hf)⟩⟩

end Pdf

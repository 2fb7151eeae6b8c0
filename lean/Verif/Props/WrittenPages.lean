import Verif.Props.Outputs
import Verif.Props.UniFile
import Verif.Props.TextFile
/-! C96 for written documents: the pages that every converter gets. -/

namespace Pdf
open Spec

/-- A page of letter size with this text. -/
def Spec.letter (t : PyStr) : Sheet := ⟨t, 612, 792⟩

/-- The pages of a written document have the size of their `MediaBox`. -/
theorem letter_sheets {S : Setup} {R : Resolver} (hR : R.Direct) {ig : Bool} (pages : List (List Bytes)) (texts : List PyStr)
    (h : List.Forall₂ (fun leaf t => PageText S R ig leaf.2 t) ((textTree pages).leaves [catalogDict]) texts) :
    List.Forall₂ (fun leaf x => SheetOf S ig R leaf.2 x) ((textTree pages).leaves [catalogDict]) (texts.map letter) := by
  rw [textTree, PageTree.leaves, text_leaves, List.forall₂_map_left_iff] at h ⊢
  rw [List.forall₂_map_right_iff]
  refine h.imp fun k t ht => ⟨ht, _, _, _, _, _, 0, 0, 612, 792, rfl, hR _ (by simp), rfl, rfl, rfl, rfl, ?_, ?_⟩
  · simp [letter]
  · simp [letter]

/-- The pages of a written document, its texts in a font of the document. -/
theorem sheets_in (S : Setup) (objs : List Obj) (ho : ∀ o ∈ objs, Writable o) (font : List (Key × Obj)) (ig : Bool) (pages : List (List Bytes)) (texts : List PyStr)
    (hT : TextTable (numbered 1 objs) font pages)
    (h : ∃ k f, buildFont (S.fontEnv (fileResolver (numbered 1 objs))) k font = .ok f ∧
      List.Forall₂ (fun lines t => ∃ ts, List.Forall₂ (PlacedText f ig) lines ts ∧ (∀ s ∈ lines, HasCharacter f [.str s]) ∧ t = ts.flatten) pages texts) :
    DocumentOf S (writeFile objs [(nm "Size", .int ↑(objs.length + 1)), (nm "Root", .ref 1 0)]) (SheetOf S ig) (texts.map letter) := by
  obtain ⟨g1, g2, g3⟩ := text_pages_in S _ font ig pages texts hT h
  exact document_in S objs ho pages _ _ g1 g2 (letter_sheets (fileResolver_direct _) pages texts g3)

/-- **C96**, for text written in Helvetica (see C92): every converter gets these pages. -/
theorem written_pages (S : Setup) (h : Furnished S) (opts : Options) (pages : List (List Bytes)) (texts : List PyStr) (hn : ∀ lines ∈ pages, ∀ s ∈ lines, s ≠ [])
    (hp : List.Forall₂ (fun lines t => ∃ ts, List.Forall₂ WinText lines ts ∧ t = ts.flatten) pages texts)
    (maxpages : Nat) (hmax : opts.maxpages = maxpages) (hne : asked opts.pagenos maxpages (texts.map letter) ≠ []) :
    ∃ ps, PagesAre 0 (asked opts.pagenos maxpages (texts.map letter)) ps ∧ ∃ N, ∀ fuel ≥ N, deliver S opts fuel (writeText helvetica pages) = { pages := ps } ∧
      Converted S opts fuel (writeText helvetica pages) (asked opts.pagenos maxpages (texts.map letter)) ps := by
  refine file_pages S h.bufsiz _ opts _ ?_ maxpages hmax hne
  exact sheets_in S _ (writable_text helvetica helvetica_wf pages) helvetica opts.ignoreBad pages texts
    (let ⟨g1, g2, g3, g4⟩ := textObjs_get helvetica pages; ⟨g1, g2, g3, g4⟩) (helvetica_lines S h opts.ignoreBad pages texts hn hp _ (fileResolver_direct _))

/-- **C96**, for text in any characters (see C95). -/
theorem unicode_written_pages (S : Setup) (hb : 0 < S.bufsiz) (opts : Options) (alphabet : List (List Char)) (hl : alphabet.length ≤ 65536) (pages : List (List (List Nat)))
    (hp : ∀ lines ∈ pages, ∀ line ∈ lines, line ≠ [] ∧ ∀ c ∈ line, c < alphabet.length) (maxpages : Nat) (hmax : opts.maxpages = maxpages) (sheets : List Sheet)
    (hs : sheets = asked opts.pagenos maxpages (pages.map fun lines => letter (codesText alphabet lines.flatten))) (hne : sheets ≠ []) :
    ∃ ps, PagesAre 0 sheets ps ∧ ∃ N, ∀ fuel ≥ N, deliver S opts fuel (writeCodes alphabet pages) = { pages := ps } ∧
      Converted S opts fuel (writeCodes alphabet pages) sheets ps := by
  subst hs
  refine file_pages S hb _ opts _ ?_ maxpages hmax hne
  obtain ⟨g1, g2⟩ := unicode_lines S hb opts.ignoreBad alphabet hl pages hp
  have := sheets_in S (uniObjs alphabet pages) (uniObjs_writable alphabet pages) _ opts.ignoreBad _ _ g1 g2
  rw [List.map_map] at this
  exact this

/-- A document with two pages, of which the second is asked for: every converter gets one page, with number 0. -/
example : ∃ ps, PagesAre 0 [⟨pstr "World", 612, 792⟩] ps ∧ ∃ N, ∀ fuel ≥ N,
    deliver sampleSetup { pagenos := [1] } fuel (writeText helvetica [[asc "Hello"], [asc "Wor", asc "ld"]]) = { pages := ps } := by
  obtain ⟨ps, h1, N, h2⟩ := written_pages sampleSetup sample_furnished { pagenos := [1] } [[asc "Hello"], [asc "Wor", asc "ld"]] [pstr "Hello", pstr "World"]
    (by decide) (.cons ⟨[pstr "Hello"], .cons ⟨(pstr "Hello").map fun c => [c], by decide +kernel, rfl⟩ .nil, by decide⟩
      (.cons ⟨[pstr "Wor", pstr "ld"], .cons ⟨(pstr "Wor").map fun c => [c], by decide +kernel, rfl⟩ (.cons ⟨(pstr "ld").map fun c => [c], by decide +kernel, rfl⟩ .nil), by decide⟩ .nil))
    0 rfl (by simp [asked, Wanted])
  refine ⟨ps, ?_, N, fun fuel hf => (h2 fuel hf).1⟩
  simpa [asked, Wanted, letter] using h1

end Pdf

import Verif.Props.Write
import Verif.Props.Fonts
import Verif.Props.Security
import Verif.Spec.TextFile
/-! C92: text that is written to a file is extracted from it. -/

namespace Pdf
open Spec

/-! ### The objects -/

theorem pageObjs_get (j : Nat) (pages : List (List Bytes)) (k : Nat) (lines : List Bytes) (h : pages[k]? = some lines) :
    (pageObjs j pages)[2 * k]? = some (.dict (pageDict (j + k))) ∧ (pageObjs j pages)[2 * k + 1]? = some (contentObj lines) := by
  induction pages generalizing j k with
  | nil => simp at h
  | cons p ps ih =>
    cases k with
    | zero => simp at h; subst h; exact ⟨rfl, rfl⟩
    | succ k =>
      obtain ⟨h1, h2⟩ := ih (j + 1) k (by simpa using h)
      rw [show j + 1 + k = j + (k + 1) by omega] at h1
      exact ⟨h1, h2⟩

theorem textObjs_get (font : List (Key × Obj)) (pages : List (List Bytes)) :
    dictGet (numbered 1 (textObjs font pages)) 1 = some (.dict catalogDict) ∧ dictGet (numbered 1 (textObjs font pages)) 2 = some (.dict (pagesDict pages.length)) ∧
    dictGet (numbered 1 (textObjs font pages)) 3 = some (.dict font) ∧
    ∀ k lines, pages[k]? = some lines → dictGet (numbered 1 (textObjs font pages)) ((2 * k + 4 : Nat) : Int) = some (.dict (pageDict k)) ∧
      dictGet (numbered 1 (textObjs font pages)) ((2 * k + 5 : Nat) : Int) = some (contentObj lines) := by
  refine ⟨numbered_get 1 _ 0, numbered_get 1 _ 1, numbered_get 1 _ 2, fun k lines h => ?_⟩
  obtain ⟨h1, h2⟩ := pageObjs_get 0 pages k lines h
  rw [Nat.zero_add] at h1
  rw [show 2 * k + 4 = 1 + (2 * k + 3) by omega, show 2 * k + 5 = 1 + (2 * k + 1 + 3) by omega, numbered_get, numbered_get]
  exact ⟨h1, h2⟩

/-! ### The content -/

theorem digit_notM : ∀ c : UInt8, Digit c → c ≠ 109 := by
  refine forall_byte ?_
  decide +kernel

theorem octal_notM (s : Bytes) : 109 ∉ octalBody s := by
  induction s with
  | nil => simp [octalBody]
  | cons c s ih =>
    have h : ∀ c : UInt8, 109 ∉ [92, UInt8.ofNat (48 + c.toNat / 64), UInt8.ofNat (48 + c.toNat % 64 / 8), UInt8.ofNat (48 + c.toNat % 8)] := by
      refine forall_byte ?_
      decide +kernel
    intro hm
    rcases List.mem_append.1 (show 109 ∈ [92, UInt8.ofNat (48 + c.toNat / 64), UInt8.ofNat (48 + c.toNat % 64 / 8), UInt8.ofNat (48 + c.toNat % 8)] ++ octalBody s from hm) with hm | hm
    · exact h c hm
    · exact ih hm

theorem textToks_notM (lines : List Bytes) : 109 ∉ printToks (textToks lines) := by
  have h1 : ∀ a b : List Tok, 109 ∉ printToks a → 109 ∉ printToks b → 109 ∉ printToks (a ++ b) := by
    intro a b ha hb
    rw [printToks_append, List.mem_append]
    rintro (h | h)
    · exact ha h
    · exact hb h
  refine h1 _ _ (by decide +kernel) (h1 _ _ ?_ (by decide))
  induction lines with
  | nil => decide
  | cons s ss ih =>
    rw [List.flatMap_cons]
    refine h1 [.int 0, .int (-14), .kw (asc "Td"), .str s, .kw (asc "Tj")] _ ?_ ih
    refine h1 [.int 0, .int (-14), .kw (asc "Td")] [.str s, .kw (asc "Tj")] (by decide +kernel) (h1 [.str s] [.kw (asc "Tj")] ?_ (by decide))
    simp only [printToks, printTok, List.append_nil, List.mem_append, List.mem_cons, List.not_mem_nil, or_false, not_or]
    exact ⟨⟨⟨by decide, octal_notM s⟩, by decide⟩, by decide⟩

/-- The objects of the content. -/
def textOps (lines : List Bytes) : List Obj :=
  [operator "BT", .name (asc "F1"), .int 12, operator "Tf"] ++ (lines.flatMap (fun s => [.int 0, .int (-14), operator "Td", .str s, operator "Tj"]) ++ [operator "ET"])

theorem writesSeq_and {D : Dialect} {ts us : List Tok} {os ps : List Obj} (h : WritesSeq D ts os) (h' : WritesSeq D us ps) : WritesSeq D (ts ++ us) (os ++ ps) := by
  match h with
  | .nil => exact h'
  | .cons h1 h2 =>
    rw [List.append_assoc]
    exact .cons h1 (writesSeq_and h2 h')

theorem plain_op {n : Bytes} (h : n ∉ Spec.brackets ∧ n ∉ [[66, 73], [73, 68], [69, 73]]) : contentDialect.plain n := h

theorem textOps_written (lines : List Bytes) : WritesSeq contentDialect (textToks lines) (textOps lines) := by
  refine writesSeq_and ?_ (writesSeq_and ?_ ?_)
  · exact .cons (.kw _ (plain_op (by decide))) (.cons (.name _) (.cons (.int _) (.cons (.kw _ (plain_op (by decide))) .nil)))
  · induction lines with
    | nil => exact .nil
    | cons s ss ih =>
      exact writesSeq_and (.cons (.int 0) (.cons (.int (-14)) (.cons (.kw (asc "Td") (plain_op (by decide))) (.cons (.str s) (.cons (.kw (asc "Tj") (plain_op (by decide))) .nil))))) ih
  · exact .cons (.kw _ (plain_op (by decide))) .nil

theorem textToks_printable (lines : List Bytes) : ∀ t ∈ textToks lines, Printable t := by
  intro t ht
  have h2 : ∀ n ∈ [asc "BT", asc "Tf", asc "ET", asc "Td", asc "Tj"], Printable (.kw n) := by
    intro n hn
    simp only [List.mem_cons, List.not_mem_nil, or_false] at hn
    rcases hn with rfl | rfl | rfl | rfl | rfl
    · exact Or.inr ⟨66, [84], rfl, by decide, by decide, by decide, by decide⟩
    · exact Or.inr ⟨84, [102], rfl, by decide, by decide, by decide, by decide⟩
    · exact Or.inr ⟨69, [84], rfl, by decide, by decide, by decide, by decide⟩
    · exact Or.inr ⟨84, [100], rfl, by decide, by decide, by decide, by decide⟩
    · exact Or.inr ⟨84, [106], rfl, by decide, by decide, by decide, by decide⟩
  rcases List.mem_append.1 ht with ht | ht
  · simp only [List.mem_cons, List.not_mem_nil, or_false] at ht
    rcases ht with rfl | rfl | rfl | rfl
    · exact h2 _ (by simp)
    · trivial
    · trivial
    · exact h2 _ (by simp)
  rcases List.mem_append.1 ht with ht | ht
  · obtain ⟨s, _, hs⟩ := List.mem_flatMap.1 ht
    simp only [List.mem_cons, List.not_mem_nil, or_false] at hs
    rcases hs with rfl | rfl | rfl | rfl | rfl
    · trivial
    · trivial
    · exact h2 _ (by simp)
    · trivial
    · exact h2 _ (by simp)
  · rw [List.mem_singleton] at ht
    subst ht
    exact h2 _ (by simp)

theorem text_content (lines : List Bytes) : Content (printToks (textToks lines)) (textOps lines) := by
  obtain ⟨pts, h1, h2⟩ := text_print (textToks lines) (textToks_printable lines) 0 []
  have := Content.objects h2 (h1 ▸ textOps_written lines) .nil
  simpa using this

theorem content_decoded (R : Resolver) (inflate) (n : Int) (body : Bytes) : decodeStream R inflate none [(nm "Length", .int n)] body = .ok body := by
  have h : getFilters R [(nm "Length", .int n)] = .ok [] := rfl
  unfold decodeStream
  rw [show decipherData none body = .ok body from rfl]
  dsimp only
  rw [h]
  rfl

/-! ### Everything can be written -/

theorem wfs_refs (l : List Nat) : WFs (l.map fun k => .ref ((2 * k + 4 : Nat) : Int) 0) := by
  induction l with
  | nil => trivial
  | cons k l ih => exact ⟨trivial, ih⟩

theorem writable_pages (j : Nat) (pages : List (List Bytes)) : ∀ o ∈ pageObjs j pages, Writable o := by
  induction pages generalizing j with
  | nil => intro o h; cases h
  | cons p ps ih =>
    intro o h
    rcases List.mem_cons.1 h with rfl | h
    · refine ⟨?_, ?_⟩
      · show [nm "Type", nm "Parent", nm "MediaBox", nm "Resources", nm "Contents"].Nodup
        decide
      · exact ⟨⟨_, rfl⟩, trivial, ⟨_, rfl⟩, trivial, ⟨_, rfl⟩, ⟨trivial, trivial, trivial, trivial, trivial⟩, ⟨_, rfl⟩,
          ⟨by decide, ⟨_, rfl⟩, ⟨by decide, ⟨_, rfl⟩, trivial, trivial⟩, trivial⟩, ⟨_, rfl⟩, trivial, trivial⟩
    rcases List.mem_cons.1 h with rfl | h
    · refine ⟨⟨by simp, ⟨_, rfl⟩, trivial, trivial⟩, ?_, fun hi => textToks_notM p (hi.subset (by decide))⟩
      simp only [dictGet]
      rw [if_neg (by decide)]
      simp
    · exact ih _ o h

theorem writable_text (font : List (Key × Obj)) (hf : WF (.dict font)) (pages : List (List Bytes)) : ∀ o ∈ textObjs font pages, Writable o := by
  intro o h
  rcases List.mem_cons.1 h with rfl | h
  · exact ⟨by decide, ⟨_, rfl⟩, trivial, ⟨_, rfl⟩, trivial, trivial⟩
  rcases List.mem_cons.1 h with rfl | h
  · refine ⟨?_, ⟨_, rfl⟩, trivial, ⟨_, rfl⟩, wfs_refs _, ⟨_, rfl⟩, trivial, trivial⟩
    show [nm "Type", nm "Kids", nm "Count"].Nodup
    decide
  rcases List.mem_cons.1 h with rfl | h
  · exact hf
  · exact writable_pages 0 pages o h

/-! ### The pages -/

theorem text_tree (R : Resolver) (l : List Nat) (h : ∀ k ∈ l, R.resolve1 (.ref ((2 * k + 4 : Nat) : Int) 0) = .ok (.dict (pageDict k))) :
    IsTrees R (l.map fun k => .ref ((2 * k + 4 : Nat) : Int) 0) (l.map fun k => .page ((2 * k + 4 : Nat) : Int) (pageDict k)) := by
  induction l with
  | nil => exact .nil
  | cons k l ih => exact .cons (.page (h k (by simp)) rfl) (ih fun x hx => h x (by simp [hx]))

theorem text_leaves (above : List Dict) (l : List Nat) :
    leavesAll above (l.map fun k => .page ((2 * k + 4 : Nat) : Int) (pageDict k)) = l.map fun k => (((2 * k + 4 : Nat) : Int), pageDict k :: above) := by
  induction l with
  | nil => rfl
  | cons k l ih => simp only [List.map_cons, leavesAll, PageTree.leaves, ih]; rfl

/-- A page with lines of text. -/
theorem lines_wellFormed {E : Env1} {ig : Bool} {res : List (Key × Obj)} {f : Font} {lines : List Bytes} {ts : List PyStr}
    (h : List.Forall₂ (PlacedText f ig) lines ts) (hc : ∀ s ∈ lines, HasCharacter f [.str s]) (u : PyStr) :
    WellFormed E ig res ⟨some f, [], some u⟩ (lines.flatMap (fun s => [.int 0, .int (-14), operator "Td", .str s, operator "Tj"]) ++ [operator "ET"]) (u ++ ts.flatten) := by
  induction h generalizing u with
  | nil => exact .endText .done
  | @cons s t ss ts h1 _ ih =>
    rw [List.flatMap_cons, List.flatten_cons, ← List.append_assoc]
    exact .numbers (n := "Td") (k := 2) [.int 0, .int (-14)] (by decide) rfl (by simpa using ⟨int_number 0, int_number (-14)⟩)
      (.showString h1 (hc s (by simp)) (ih (fun x hx => hc x (by simp [hx])) (u ++ t)))

/-- What the font is in this document, and the content of the page. -/
def textEnv (S : Setup) (R : Resolver) (k : Nat) (lines : List Bytes) : Env1 where
  R := R
  getFont _ spec := buildFont (S.fontEnv R) k spec
  content streams := if streams = [contentObj lines] then (textOps lines, none) else ([], some .psEOF)

theorem textEnv_serves (S : Setup) (R : Resolver) (hR : R.Direct) (k : Nat) (lines : List Bytes) : Serves S R (textEnv S R k lines) := by
  refine ⟨rfl, fun _ _ _ h => ⟨k, h⟩, fun streams os h => ?_⟩
  simp only [textEnv] at h
  split at h
  · rename_i hs
    cases h
    subst hs
    refine ⟨[printToks (textToks lines)], by simp, .cons ⟨_, _, hR _ (by simp [contentObj]), content_decoded _ _ _ _⟩ .nil, by simp [Uncut], ?_⟩
    rw [List.flatten_singleton]
    exact text_content lines
  · cases h

theorem attr_mem {ds : List Dict} {k : Key} {o : Obj} (h : pageAttr ds k = some o) : ∃ d ∈ ds, (k, o) ∈ d := by
  unfold pageAttr at h
  split at h
  · obtain ⟨d, h1, h2⟩ := List.exists_of_findSome?_eq_some h
    exact ⟨d, h1, dictGet_some_mem h2⟩
  · cases ds with
    | nil => cases h
    | cons d ds => exact ⟨d, by simp, dictGet_some_mem h⟩

/-- The resources of a page. -/
def textRes : List (Key × Obj) := [(nm "Font", .dict [(nm "F1", .ref 3 0)])]

theorem text_usable (S : Setup) (font : List (Key × Obj)) (R : Resolver) (hR : R.Direct) (kf : Nat) (f : Font) (lines : List Bytes)
    (hf : R.resolve1 (.ref 3 0) = .ok (.dict font)) (hb : buildFont (S.fontEnv R) kf font = .ok f) : UsableResources (textEnv S R kf lines) textRes := by
  refine ⟨by decide, ?_, ?_, ?_, ?_⟩
  · intro o h
    have : dictGet textRes (nm "Font") = some (.dict [(nm "F1", .ref 3 0)]) := rfl
    rw [this] at h
    cases h
    refine ⟨_, hR _ (by simp), ?_⟩
    simp only [List.mem_singleton, forall_eq]
    exact ⟨font, f, hf, hb⟩
  · intro o h
    have : dictGet textRes (nm "ColorSpace") = none := rfl
    rw [this] at h
    cases h
  · intro o h
    have : dictGet textRes (nm "ProcSet") = none := rfl
    rw [this] at h
    cases h
  · intro o h
    have : dictGet textRes (nm "XObject") = none := rfl
    rw [this] at h
    cases h

theorem text_wellFormed (S : Setup) (font : List (Key × Obj)) (R : Resolver) (hR : R.Direct) (kf : Nat) (f : Font) (ig : Bool) (lines : List Bytes) (ts : List PyStr)
    (hf : R.resolve1 (.ref 3 0) = .ok (.dict font)) (hb : buildFont (S.fontEnv R) kf font = .ok f) (h : List.Forall₂ (PlacedText f ig) lines ts)
    (hl : ∀ s ∈ lines, HasCharacter f [.str s]) : WellFormed (textEnv S R kf lines) ig textRes Pen.start (textOps lines) ts.flatten := by
  refine .beginText (.selectFont (int_number 12) ⟨.ref 3 0, font, ⟨[(nm "Font", .dict [(nm "F1", .ref 3 0)])], [(nm "F1", .ref 3 0)], hR _ (by simp), by decide, .given rfl (hR _ (by simp)), by decide, rfl⟩, hf, hb⟩ ?_)
  exact lines_wellFormed h hl []

/-- The fonts of the pages: a font that can be built in every document. -/
theorem text_page (S : Setup) (font : List (Key × Obj)) (R : Resolver) (hR : R.Direct) (hz : ∀ i g, i ≠ 0 → ∃ v, R.resolve1 (.ref i g) = .ok v)
    (n k kf : Nat) (f : Font) (ig : Bool) (lines : List Bytes) (ts : List PyStr)
    (hf : R.resolve1 (.ref 3 0) = .ok (.dict font)) (hc : R.resolve1 (.ref ((2 * k + 5 : Nat) : Int) 0) = .ok (contentObj lines))
    (hb : buildFont (S.fontEnv R) kf font = .ok f) (h : List.Forall₂ (PlacedText f ig) lines ts) (hl : ∀ s ∈ lines, HasCharacter f [.str s]) :
    PageText S R ig [pageDict k, pagesDict n, catalogDict] ts.flatten := by
  refine ⟨?_, ?_, ?_⟩
  · intro key o ho
    obtain ⟨d, h1, h2⟩ := attr_mem ho
    have key : ∀ i g, o = .ref i g → i ≠ 0 := by
      rintro i g rfl
      simp only [List.mem_cons, List.not_mem_nil, or_false] at h1
      rcases h1 with rfl | rfl | rfl
      · simp only [pageDict, List.mem_cons, List.not_mem_nil, or_false, Prod.mk.injEq, Obj.ref.injEq, reduceCtorEq, and_false, false_or] at h2
        rcases h2 with ⟨_, h, _⟩ | ⟨_, h, _⟩ <;> omega
      · simp [pagesDict] at h2
      · simp only [catalogDict, List.mem_cons, List.not_mem_nil, or_false, Prod.mk.injEq, Obj.ref.injEq, reduceCtorEq, and_false, false_or] at h2
        omega
    cases o with
    | ref i g => exact hz i g (key i g rfl)
    | _ => exact ⟨_, hR _ (by simp)⟩
  · exact ⟨_, _, _, _, _, rfl, hR _ (by simp), int_number _, int_number _, int_number _, int_number _⟩
  · refine ⟨textEnv S R kf lines, [(nm "Font", .dict [(nm "F1", .ref 3 0)])], .ref ((2 * k + 5 : Nat) : Int) 0, contentObj lines, textEnv_serves S R hR kf lines, hR (.dict [(nm "Font", .dict [(nm "F1", .ref 3 0)])]) (by simp), ?_, rfl, hc, ?_, ?_⟩
    · exact text_usable S font R hR kf f lines hf hb
    · simp [textEnv, streamsOf, contentObj]
    · have hs : ((textEnv S R kf lines).content (streamsOf (contentObj lines))).1 = textOps lines := by simp [textEnv, streamsOf, contentObj]
      rw [hs]
      exact text_wellFormed S font R hR kf f ig lines ts hf hb h hl

/-- The font can be built in every document, and the lines of the pages have these texts in it. -/
def Spec.LinesRead (S : Setup) (font : List (Key × Obj)) (ig : Bool) (pages : List (List Bytes)) (texts : List PyStr) : Prop :=
  ∀ R : Resolver, R.Direct → ∃ k f, buildFont (S.fontEnv R) k font = .ok f ∧
    List.Forall₂ (fun lines t => ∃ ts, List.Forall₂ (PlacedText f ig) lines ts ∧ (∀ s ∈ lines, HasCharacter f [.str s]) ∧ t = ts.flatten) pages texts

/-- The page tree. -/
def Spec.textTree (pages : List (List Bytes)) : PageTree :=
  .pages (pagesDict pages.length) ((List.range pages.length).map fun k => .page ((2 * k + 4 : Nat) : Int) (pageDict k))

/-- The objects `T` have a catalog, a page tree, a font and pages with lines. -/
structure Spec.TextTable (T : List (Int × Obj)) (font : List (Key × Obj)) (pages : List (List Bytes)) : Prop where
  catalog : dictGet T 1 = some (.dict catalogDict)
  tree : dictGet T 2 = some (.dict (pagesDict pages.length))
  font : dictGet T 3 = some (.dict font)
  pages : ∀ k lines, pages[k]? = some lines → dictGet T ((2 * k + 4 : Nat) : Int) = some (.dict (pageDict k)) ∧ dictGet T ((2 * k + 5 : Nat) : Int) = some (contentObj lines)

theorem fileResolver_direct (T : List (Int × Obj)) : (fileResolver T).Direct := by
  intro o ho
  cases o <;> first | rfl | exact absurd rfl (ho _ _)

/-- The pages of a document with text. -/
theorem text_pages_in (S : Setup) (T : List (Int × Obj)) (font : List (Key × Obj)) (ig : Bool) (pages : List (List Bytes)) (texts : List PyStr) (hT : TextTable T font pages)
    (h : ∃ k f, buildFont (S.fontEnv (fileResolver T)) k font = .ok f ∧
      List.Forall₂ (fun lines t => ∃ ts, List.Forall₂ (PlacedText f ig) lines ts ∧ (∀ s ∈ lines, HasCharacter f [.str s]) ∧ t = ts.flatten) pages texts) :
    (fileResolver T).resolve1 (.ref 1 0) = .ok (.dict catalogDict) ∧ IsTree (fileResolver T) (.ref 2 0) (textTree pages) ∧
    List.Forall₂ (fun leaf t => PageText S (fileResolver T) ig leaf.2 t) ((textTree pages).leaves [catalogDict]) texts := by
  obtain ⟨g1, g2, g3, g4⟩ := hT
  have hR : (fileResolver T).Direct := fileResolver_direct T
  have hz : ∀ i g, i ≠ 0 → (fileResolver T).resolve1 (.ref i g) = .ok ((dictGet T i).getD .null) := fun i g hi => if_neg hi
  obtain ⟨k, f, hb, hf⟩ := h
  refine ⟨?_, ?_, ?_⟩
  · rw [hz _ _ (by decide), g1]; rfl
  · refine .pages (by rw [hz _ _ (by decide), g2]; rfl) rfl rfl (hR _ (by simp)) (text_tree _ _ ?_)
    intro k hk
    obtain ⟨lines, hl⟩ : ∃ lines, pages[k]? = some lines := ⟨_, List.getElem?_eq_getElem (List.mem_range.1 hk)⟩
    rw [hz _ _ (by omega), (g4 k lines hl).1]; rfl
  · rw [textTree, PageTree.leaves, text_leaves, List.forall₂_map_left_iff]
    rw [List.forall₂_iff_get] at hf ⊢
    refine ⟨by simpa using hf.1, fun i h1 h2 => ?_⟩
    obtain ⟨ts, t1, t2, t3⟩ := hf.2 i (by simpa using h1) h2
    simp only [List.get_eq_getElem, List.getElem_range] at t1 t2 t3 ⊢
    rw [t3]
    refine text_page S font _ hR (fun i g hi => ⟨_, hz i g hi⟩) _ i k f ig _ ts (by rw [hz _ _ (by decide), g3]; rfl) ?_ hb t1 t2
    rw [hz _ _ (by omega), (g4 i _ (List.getElem?_eq_getElem (by simpa using h1))).2]; rfl

/-- The pages of a text file. -/
theorem text_pages (S : Setup) (font : List (Key × Obj)) (ig : Bool) (pages : List (List Bytes)) (texts : List PyStr) (h : LinesRead S font ig pages texts) :
    (fileResolver (numbered 1 (textObjs font pages))).resolve1 (.ref 1 0) = .ok (.dict catalogDict) ∧
    IsTree (fileResolver (numbered 1 (textObjs font pages))) (.ref 2 0) (textTree pages) ∧
    List.Forall₂ (fun leaf t => PageText S (fileResolver (numbered 1 (textObjs font pages))) ig leaf.2 t) ((textTree pages).leaves [catalogDict]) texts :=
  text_pages_in S _ font ig pages texts (let ⟨g1, g2, g3, g4⟩ := textObjs_get font pages; ⟨g1, g2, g3, g4⟩) (h _ (fileResolver_direct _))

/-- A file with a catalog and a page tree is a document with these pages. -/
theorem tree_document_in {α : Type} (S : Setup) (objs : List Obj) (ho : ∀ o ∈ objs, Writable o) (T : PageTree) (Is : Resolver → List Dict → α → Prop) (xs : List α)
    (g1 : (fileResolver (numbered 1 objs)).resolve1 (.ref 1 0) = .ok (.dict catalogDict)) (g2 : IsTree (fileResolver (numbered 1 objs)) (.ref 2 0) T)
    (g3 : List.Forall₂ (fun leaf x => Is (fileResolver (numbered 1 objs)) leaf.2 x) (T.leaves [catalogDict]) xs) :
    DocumentOf S (writeFile objs [(nm "Size", .int ↑(objs.length + 1)), (nm "Root", .ref 1 0)]) Is xs := by
  have hwt : WF (.dict [(nm "Size", .int ↑(objs.length + 1)), (nm "Root", .ref 1 0)]) := by
    refine ⟨?_, ⟨_, rfl⟩, trivial, ⟨_, rfl⟩, trivial, trivial⟩
    show [nm "Size", nm "Root"].Nodup
    decide
  generalize hT : [(nm "Size", Obj.int ↑(objs.length + 1)), (nm "Root", Obj.ref 1 0)] = trailer at hwt
  have hnone : ∀ key, key ≠ nm "Size" → key ≠ nm "Root" → dictGet trailer key = none := by
    intro key h1 h2
    rw [← hT]
    simp only [dictGet]
    rw [if_neg (Ne.symm h1), if_neg (Ne.symm h2)]
  refine ⟨[⟨tablePos ((0, none) :: tableEntries 1 9 objs), trailer⟩] ++ [⟨scanned (places 1 9 objs), trailer⟩], numbered 1 objs, [], trailer, [trailer], .ref 1 0, catalogDict, .ref 2 0, T,
    ?_, ?_, rfl, by simp, ?_, ?_, ?_, g1, rfl, g2, g3⟩
  · exact written_sections S.fileDecode _ trailer ho hwt (hnone _ (by decide) (by decide)) (hnone _ (by decide) (by decide))
  · exact written_objects _ _ trailer ho
  · rw [← hT]; rfl
  · intro x hx
    rw [List.nil_append, List.mem_singleton] at hx
    subst hx
    exact hnone _ (by decide) (by decide)
  · intro x hx v hv
    rw [List.nil_append, List.mem_singleton] at hx
    subst hx
    rw [hnone _ (by decide) (by decide)] at hv
    cases hv

/-- A file with a catalog, a page tree, a font and pages with lines is a document with these texts. -/
theorem document_in {α : Type} (S : Setup) (objs : List Obj) (ho : ∀ o ∈ objs, Writable o) (pages : List (List Bytes)) (Is : Resolver → List Dict → α → Prop) (xs : List α)
    (g1 : (fileResolver (numbered 1 objs)).resolve1 (.ref 1 0) = .ok (.dict catalogDict)) (g2 : IsTree (fileResolver (numbered 1 objs)) (.ref 2 0) (textTree pages))
    (g3 : List.Forall₂ (fun leaf x => Is (fileResolver (numbered 1 objs)) leaf.2 x) ((textTree pages).leaves [catalogDict]) xs) :
    DocumentOf S (writeFile objs [(nm "Size", .int ↑(objs.length + 1)), (nm "Root", .ref 1 0)]) Is xs :=
  tree_document_in S objs ho _ Is xs g1 g2 g3

/-- The same, for texts. -/
theorem text_document_in (S : Setup) (objs : List Obj) (ho : ∀ o ∈ objs, Writable o) (font : List (Key × Obj)) (ig : Bool) (pages : List (List Bytes)) (texts : List PyStr)
    (hT : TextTable (numbered 1 objs) font pages)
    (h : ∃ k f, buildFont (S.fontEnv (fileResolver (numbered 1 objs))) k font = .ok f ∧
      List.Forall₂ (fun lines t => ∃ ts, List.Forall₂ (PlacedText f ig) lines ts ∧ (∀ s ∈ lines, HasCharacter f [.str s]) ∧ t = ts.flatten) pages texts) :
    Document S ig (writeFile objs [(nm "Size", .int ↑(objs.length + 1)), (nm "Root", .ref 1 0)]) texts := by
  obtain ⟨g1, g2, g3⟩ := text_pages_in S _ font ig pages texts hT h
  exact document_in S objs ho pages _ texts g1 g2 g3

/-- A text file is a document with these texts. -/
theorem text_document (S : Setup) (font : List (Key × Obj)) (hw : WF (.dict font)) (ig : Bool) (pages : List (List Bytes)) (texts : List PyStr)
    (h : LinesRead S font ig pages texts) : Document S ig (writeText font pages) texts :=
  text_document_in S _ (writable_text font hw pages) font ig pages texts (let ⟨g1, g2, g3, g4⟩ := textObjs_get font pages; ⟨g1, g2, g3, g4⟩) (h _ (fileResolver_direct _))

/-! ### Helvetica -/

theorem numValue_number {R : Resolver} (hR : R.Direct) {o : Obj} (h : ∀ i g, o ≠ .ref i g) : ∃ v, R.numValue o = .ok v ∧ ∃ q, v.num = .ok q := by
  unfold Resolver.numValue
  rw [hR o h]
  dsimp only
  split
  · rename_i hn
    obtain ⟨q, hq⟩ := Option.isSome_iff_exists.1 hn
    exact ⟨o, rfl, q, by rw [Obj.num, hq]⟩
  · exact ⟨_, rfl, 0, rfl⟩

theorem getOr_direct {d : List (Key × Obj)} (h : ∀ e ∈ d, ∀ i g, e.2 ≠ .ref i g) (key : String) (default : Obj) (hd : ∀ i g, default ≠ .ref i g) :
    ∀ i g, getOr d key default ≠ .ref i g := by
  unfold getOr
  cases hg : dictGet d (nm key) with
  | none => exact hd
  | some o => exact h _ (dictGet_some_mem hg)

/-- What is known of Helvetica. -/
structure HelveticaFont (f : Font) : Prop where
  decode : ∀ s : Bytes, f.decode s = .ok (s.map fun c => (c.toNat : Int))
  text : ∀ (c : Nat) t, baseText (asc "WinAnsiEncoding") c = some t → f.toUnichr c = .ok t
  measured : ∀ c t, f.toUnichr c = .ok t → Measured f c
  upright : f.vertical = false

theorem helvetica_built (S : Setup) (h : Furnished S) (R : Resolver) (hR : R.Direct) : ∃ f, buildFont (S.fontEnv R) 1 helvetica = .ok f ∧ HelveticaFont f := by
  obtain ⟨hb, hG, ht, d, w, hm, hp⟩ := h
  have hsrc : type1Source (S.fontEnv R) helvetica = .ok (d, [], w) := by
    unfold type1Source
    rw [show baseFontKey helvetica = .ok (some (pstr "Helvetica")) from by decide +kernel]
    show (match S.metrics (pstr "Helvetica") with
      | some (d, w) => _
      | none => _) = _
    rw [hm]
  have henc : simpleEncoding (S.fontEnv R) helvetica = .ok (S.tables.getD (encodingAddr (asc "WinAnsiEncoding")) []) := by
    unfold simpleEncoding
    rw [show dictGet helvetica (nm "Encoding") = some (.name (asc "WinAnsiEncoding")) from rfl]
    dsimp only
    rw [show (S.fontEnv R).R.resolve1 (.name (asc "WinAnsiEncoding")) = .ok (.name (asc "WinAnsiEncoding")) from hR _ (by simp)]
    rfl
  have hnum : ∀ key n, ∃ v, R.numValue (getOr d key (.int n)) = .ok v ∧ ∃ q, v.num = .ok q := fun key n => numValue_number hR (getOr_direct hp.direct _ _ (by simp))
  obtain ⟨va, a1, qa, a2⟩ := hnum "Ascent" 0
  obtain ⟨vd, d1, qd, d2⟩ := hnum "Descent" 0
  obtain ⟨vi, i1, _⟩ := hnum "ItalicAngle" 0
  obtain ⟨vw, w1, qw, w2⟩ := hnum "MissingWidth" 0
  obtain ⟨vl, l1, _⟩ := hnum "Leading" 0
  obtain ⟨x0, y0, x1, y1, hbox, hq⟩ := hp.box
  have hname := hR _ (getOr_direct hp.direct "FontName" (.name (asc "unknown")) (by simp))
  have hflags : ∃ v, R.intValue (getOr d "Flags" (.int 0)) = .ok v := by
    unfold Resolver.intValue
    rw [hR _ (getOr_direct hp.direct "Flags" (.int 0) (by simp))]
    split <;> first | exact ⟨_, rfl⟩ | simp_all
  obtain ⟨vf, hflags⟩ := hflags
  have hlist : R.listValue (getOr d "FontBBox" (.arr [.int 0, .int 0, .int 0, .int 0])) = .ok [x0, y0, x1, y1] := by
    rw [hbox]
    unfold Resolver.listValue
    rw [hR _ (by simp)]
  have hcore : fontCore R d none = .ok { name := getOr d "FontName" (.name (asc "unknown")), ascent := va, descent := vd, defaultWidth := vw, bbox := [x0, y0, x1, y1] } := by
    simp only [fontCore, bind, Except.bind, hname, hflags, a1, d1, i1, w1, l1, hlist]
  obtain ⟨q0, h0⟩ := hq x0 (by simp)
  obtain ⟨p0, g0⟩ := hq y0 (by simp)
  obtain ⟨q1, h1⟩ := hq x1 (by simp)
  obtain ⟨p1, g1⟩ := hq y1 (by simp)
  refine ⟨simpleFont { name := getOr d "FontName" (.name (asc "unknown")), ascent := va, descent := vd, defaultWidth := vw, bbox := [x0, y0, x1, y1] } [] w none
    (S.tables.getD (encodingAddr (asc "WinAnsiEncoding")) []), ?_, ?_⟩
  · rw [(buildFont_kind (S.fontEnv R) 0 helvetica).1 rfl]
    unfold type1Font
    rw [hsrc, henc]
    simp only [bind, Except.bind]
    rw [show toUnicodeMap (S.fontEnv R) helvetica = .ok none from rfl, show (S.fontEnv R).R = R from rfl, hcore]
    rfl
  · refine ⟨fun s => rfl, ?_, ?_, rfl⟩
    · intro c t hc
      have := baseText_table (E := S.fontEnv R) hG ht (asc "WinAnsiEncoding") c
      show simpleUnichr none _ _ = _
      unfold simpleUnichr
      rw [Option.bind_none]
      dsimp only
      rw [show dictGet (S.tables.getD (encodingAddr (asc "WinAnsiEncoding")) []) (c : Int) = some t from this.trans hc]
    · intro c t hc
      refine ⟨?_, fun h => (by cases h), fun _ => ⟨?_, ?_⟩⟩
      · show ∃ x, FontCore.charWidth _ [] w _ c = .ok x
        unfold FontCore.charWidth
        rw [show simpleUnichr none (S.tables.getD (encodingAddr (asc "WinAnsiEncoding")) []) c = .ok t from hc]
        simp only [dictGet]
        cases hw : dictGet w t with
        | none => rw [w2]; exact ⟨_, rfl⟩
        | some o =>
          obtain ⟨q, hq⟩ := hp.widths _ (dictGet_some_mem hw)
          dsimp only at hq
          simp only [Obj.num, hq]
          exact ⟨_, rfl⟩
      · show ∃ x, FontCore.height _ = .ok x
        simp only [FontCore.height, bboxDiff, List.getElem?_cons_succ, List.getElem?_cons_zero, bind, Except.bind, Obj.num, g0, g1]
        split
        · rw [Obj.num] at a2 d2
          split at a2
          · split at d2
            · exact ⟨_, rfl⟩
            · cases d2
          · cases a2
        · exact ⟨_, rfl⟩
      · show ∃ x, FontCore.getDescent _ = .ok x
        simp only [FontCore.getDescent, bind, Except.bind, d2]
        exact ⟨_, rfl⟩

/-- A string in WinAnsiEncoding. -/
def Spec.WinText (s : Bytes) (t : PyStr) : Prop := ∃ ts, List.Forall₂ (fun (c : UInt8) u => baseText (asc "WinAnsiEncoding") c.toNat = some u) s ts ∧ t = ts.flatten

theorem helvetica_placed {f : Font} (hf : HelveticaFont f) (ig : Bool) {s : Bytes} {t : PyStr} (h : WinText s t) : PlacedText f ig s t := by
  obtain ⟨ts, h1, rfl⟩ := h
  refine ⟨_, ts, hf.decode s, ?_, rfl, ?_⟩
  · rw [List.forall₂_map_left_iff]
    exact h1.imp fun c u hu => .known (hf.text c.toNat u hu)
  · intro c hc
    obtain ⟨x, hx, rfl⟩ := List.mem_map.1 hc
    obtain ⟨u, hu⟩ := forall2_left h1 hx
    exact hf.measured _ u (hf.text x.toNat u hu)

theorem helvetica_wf : WF (.dict helvetica) := ⟨by decide, ⟨_, rfl⟩, trivial, ⟨_, rfl⟩, trivial, ⟨_, rfl⟩, trivial, ⟨_, rfl⟩, trivial, trivial⟩

theorem helvetica_lines (S : Setup) (h : Furnished S) (ig : Bool) (pages : List (List Bytes)) (texts : List PyStr) (hn : ∀ lines ∈ pages, ∀ s ∈ lines, s ≠ [])
    (hp : List.Forall₂ (fun lines t => ∃ ts, List.Forall₂ WinText lines ts ∧ t = ts.flatten) pages texts) : LinesRead S helvetica ig pages texts := by
  intro R hR
  obtain ⟨f, h1, h2⟩ := helvetica_built S h R hR
  refine ⟨1, f, h1, ?_⟩
  have : ∀ (ps : List (List Bytes)) (us : List PyStr), (∀ lines ∈ ps, ∀ s ∈ lines, s ≠ []) → List.Forall₂ (fun lines t => ∃ ts, List.Forall₂ WinText lines ts ∧ t = ts.flatten) ps us →
      List.Forall₂ (fun lines t => ∃ ts, List.Forall₂ (PlacedText f ig) lines ts ∧ (∀ s ∈ lines, HasCharacter f [.str s]) ∧ t = ts.flatten) ps us := by
    intro ps us hn hp
    induction hp with
    | nil => exact .nil
    | @cons lines t ps us h3 _ ih =>
      obtain ⟨ts, h4, h5⟩ := h3
      refine .cons ⟨ts, h4.imp fun _ _ => helvetica_placed h2 ig, ?_, h5⟩ (ih fun l hl => hn l (by simp [hl]))
      intro s hs
      cases s with
      | nil => exact absurd rfl (hn lines (by simp) [] hs)
      | cons c s => exact ⟨c :: s, _, _, by simp, h2.decode _⟩
  exact this pages texts hn hp

/-- **C92.** A document written with lines of text in Helvetica is a document with these texts on its pages. -/
theorem helvetica_document (S : Setup) (h : Furnished S) (ig : Bool) (pages : List (List Bytes)) (texts : List PyStr) (hn : ∀ lines ∈ pages, ∀ s ∈ lines, s ≠ [])
    (hp : List.Forall₂ (fun lines t => ∃ ts, List.Forall₂ WinText lines ts ∧ t = ts.flatten) pages texts) : Document S ig (writeText helvetica pages) texts :=
  text_document S helvetica helvetica_wf ig pages texts (helvetica_lines S h ig pages texts hn hp)

/-- **C92.** ... and `convert_to_text` gives these texts: of all pages, or of the chosen ones. -/
theorem written_text (S : Setup) (h : Furnished S) (opts : Options) (pages : List (List Bytes)) (texts : List PyStr) (hn : ∀ lines ∈ pages, ∀ s ∈ lines, s ≠ [])
    (hp : List.Forall₂ (fun lines t => ∃ ts, List.Forall₂ WinText lines ts ∧ t = ts.flatten) pages texts)
    (maxpages : Nat) (hmax : opts.maxpages = maxpages) (shown : List PyStr)
    (hs : shown = (texts.zipIdx.filter fun x => decide (Wanted opts.pagenos x.2 ∧ ∀ j < x.2, Wanted opts.pagenos j → maxpages = 0 ∨ j + 1 < maxpages)).map Prod.fst)
    (hne : shown ≠ []) : ∃ N, ∀ fuel ≥ N, convertText S opts fuel (writeText helvetica pages) = (textOf 0 shown, none) :=
  file_text S h.bufsiz _ opts texts (helvetica_document S h opts.ignoreBad pages texts hn hp) maxpages hmax shown hs hne

theorem ascii_char : ∀ c : UInt8, 32 ≤ c.toNat → c.toNat < 127 → baseText (asc "WinAnsiEncoding") c.toNat = some [c.toNat] := by
  refine forall_byte ?_
  decide +kernel

theorem ascii_text {s : Bytes} (h : ∀ c ∈ s, 32 ≤ c.toNat ∧ c.toNat < 127) : WinText s (s.map UInt8.toNat) := by
  refine ⟨s.map fun c => [c.toNat], ?_, ?_⟩
  · rw [List.forall₂_map_right_iff, List.forall₂_same]
    exact fun c hc => ascii_char c (h c hc).1 (h c hc).2
  · induction s with
    | nil => rfl
    | cons c s ih => rw [List.map_cons, List.map_cons, List.flatten_cons, ← ih fun x hx => h x (by simp [hx])]; rfl

/-- **C92, plain ASCII.** `convert_to_text` of a document whose pages were written with lines of printable ASCII characters has the lines of each page in
order. -/
theorem written_ascii (S : Setup) (h : Furnished S) (pages : List (List Bytes)) (hne : pages ≠ [])
    (hp : ∀ lines ∈ pages, ∀ s ∈ lines, s ≠ [] ∧ ∀ c ∈ s, 32 ≤ c.toNat ∧ c.toNat < 127) :
    ∃ N, ∀ fuel ≥ N, convertText S {} fuel (writeText helvetica pages) = (textOf 0 (pages.map fun lines => lines.flatten.map UInt8.toNat), none) := by
  refine written_text S h {} pages (pages.map fun lines => lines.flatten.map UInt8.toNat) (fun l hl s hs => (hp l hl s hs).1) ?_ 0 rfl _ ?_ (by simpa using hne)
  · rw [List.forall₂_map_right_iff, List.forall₂_same]
    intro lines hl
    refine ⟨lines.map fun s => s.map UInt8.toNat, ?_, by rw [List.map_flatten]⟩
    rw [List.forall₂_map_right_iff, List.forall₂_same]
    exact fun s hs => ascii_text (hp lines hl s hs).2
  · have : ∀ (l : List PyStr) (n : Nat), ((l.zipIdx n).filter fun x => decide (Wanted [] x.2 ∧ ∀ j < x.2, Wanted [] j → 0 = 0 ∨ j + 1 < 0)).map Prod.fst = l := by
      intro l n
      rw [List.filter_eq_self.2 (by simp [Wanted])]
      exact List.zipIdx_map_fst _ _
    exact (this _ 0).symm

/-! ### Examples -/

/-- A program with the Latin glyph names and the metrics of one font. -/
def sampleSetup : Setup where
  bufsiz := 4096
  inflate _ := none
  glyphs := sampleFontEnv.glyphs
  tables := sampleFontEnv.tables
  metrics := sampleFontEnv.metrics
  cmapFile _ := none
  umapFile _ := none
  crypto := ⟨Spec.toyHash, Spec.toyHash32, fun k b => Spec.xorBlock b ((k ++ List.replicate 16 0).take 16)⟩

theorem sample_furnished : Furnished sampleSetup := by
  refine ⟨by decide, adobeLatin_example, ?_, [(nm "FontName", .name (asc "Helvetica"))], [(pstr "A", .int 667)], by simp only [sampleSetup, sampleFontEnv]; exact if_pos trivial, ?_, ?_, ?_⟩
  · simp only [sampleSetup]
    exact sampleFontEnv_tables
  · simp
  · exact ⟨.int 0, .int 0, .int 0, .int 0, by decide +kernel, by simp [Obj.num?]⟩
  · simp [Obj.num?]

/-- Two pages, one with two lines. -/
example : ∃ N, ∀ fuel ≥ N, convertText sampleSetup {} fuel (writeText helvetica [[asc "Hello,", asc " world"], [asc "2"]]) =
    (textOf 0 [pstr "Hello, world", pstr "2"], none) :=
  written_ascii sampleSetup sample_furnished [[asc "Hello,", asc " world"], [asc "2"]] (by simp) (by decide +kernel)

/-- A file with one page that has no entry `Contents`. -/
def emptyPageFile : Bytes := writeFile [.dict catalogDict, .dict (pagesDict 1), .dict [],
  .dict [(nm "Type", .name (asc "Page")), (nm "MediaBox", .arr [.int 0, .int 0, .int 612, .int 792]), (nm "Resources", .dict [])]] [(nm "Root", .ref 1 0)]

/-- `Contents` is optional (ISO 32000-1, table 30), but `convert_to_text` raises `PSEOF` at a page without it. -/
theorem no_contents_counterexample : convertText { sampleSetup with glyphs := fun _ => none, tables := [], metrics := fun _ => none } {} 60 emptyPageFile =
    (pstr "========== [ page 0 ] ==========\n", some .psEOF) := by decide +kernel

end Pdf

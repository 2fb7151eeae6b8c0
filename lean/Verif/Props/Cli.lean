import Verif.Spec.Cli
import Verif.Proofs.Xref
import Verif.Props.ConvertFile
import Verif.Props.DrawingFile
import Verif.Props.WrittenLines
/-! C108: the command line. -/

namespace Pdf
open Spec

/-! ### The list of pages -/

theorem splitComma_none {s : PyStr} (h : ∀ c ∈ s, c ≠ 0x2c) : splitComma s = [s] := by
  induction s with
  | nil => rfl
  | cons c s ih =>
    rw [splitComma, if_neg (h c (by simp)), ih fun x hx => h x (by simp [hx])]

theorem splitComma_cons {s : PyStr} (h : ∀ c ∈ s, c ≠ 0x2c) (t : PyStr) : splitComma (s ++ 0x2c :: t) = s :: splitComma t := by
  induction s with
  | nil => rw [List.nil_append, splitComma, if_pos rfl]
  | cons c s ih =>
    rw [List.cons_append, splitComma, if_neg (h c (by simp)), ih fun x hx => h x (by simp [hx])]

theorem digit_field : ∀ c : UInt8, Digit c → 48 ≤ c.toNat ∧ c.toNat < 58 ∧ isSpace c = false := by
  refine forall_byte ?_
  decide +kernel

theorem field_chars {a b : PyStr} {ds : Bytes} (ha : Blanks a) (hd : Num ds) (hb : Blanks b) : ∀ c ∈ a ++ ds.map UInt8.toNat ++ b, c = 32 ∨ c = 9 ∨ (48 ≤ c ∧ c < 58) := by
  intro c hc
  simp only [List.mem_append, List.mem_map] at hc
  rcases hc with (hc | ⟨x, hx, rfl⟩) | hc
  · rcases ha c hc with h | h <;> [left; (right; left)] <;> exact h
  · have := digit_field x (hd.2 x hx)
    omega
  · rcases hb c hc with h | h <;> [left; (right; left)] <;> exact h

theorem blanks_space {a : PyStr} (ha : Blanks a) : ∀ c ∈ a.map UInt8.ofNat, isSpace c = true := by
  intro c hc
  obtain ⟨x, hx, rfl⟩ := List.mem_map.1 hc
  rcases ha x hx with rfl | rfl <;> decide

theorem dropWhile_blanks {p : UInt8 → Bool} {a ds : Bytes} (ha : ∀ c ∈ a, p c = true) (hd : ∀ c ∈ ds.head?, p c = false) : (a ++ ds).dropWhile p = ds := by
  induction a with
  | nil =>
    cases ds with
    | nil => rfl
    | cons d ds => simp [hd d (by simp)]
  | cons c a ih => rw [List.cons_append, List.dropWhile_cons_of_pos (ha c (by simp)), ih fun x hx => ha x (by simp [hx])]

theorem pyInt_field {a b : PyStr} {ds : Bytes} (ha : Blanks a) (hd : Num ds) (hb : Blanks b) : pyInt ((a ++ ds.map UInt8.toNat ++ b).map UInt8.ofNat) = .ok (Spec.decimal ds) := by
  have h1 : strip ((a ++ ds.map UInt8.toNat ++ b).map UInt8.ofNat) = ds := by
    have h2 : (ds.map UInt8.toNat).map UInt8.ofNat = ds := by
      rw [List.map_map]
      exact (List.map_congr_left fun x _ => by simp).trans (List.map_id ds)
    rw [List.map_append, List.map_append, h2, strip, List.append_assoc, dropWhile_blanks (blanks_space ha), List.reverse_append, dropWhile_blanks, List.reverse_reverse]
    · intro c hc
      exact blanks_space hb c (List.mem_reverse.1 hc)
    · intro c hc
      exact (digit_field c (hd.2 c (List.mem_reverse.1 (List.mem_of_mem_head? hc)))).2.2
    · intro c hc
      rw [List.head?_append_of_ne_nil _ hd.1] at hc
      exact (digit_field c (hd.2 c (List.mem_of_mem_head? hc))).2.2
  have h3 := pyInt_num hd
  unfold pyInt at h3 ⊢
  rw [strip_of_trims (num_trims hd)] at h3
  rw [h1]
  exact h3

theorem field_int (other : PyStr → Except PyErr Int) {a b : PyStr} {ds : Bytes} (ha : Blanks a) (hd : Num ds) (hb : Blanks b) :
    pyIntText other (a ++ ds.map UInt8.toNat ++ b) = .ok (Spec.decimal ds) := by
  rw [pyIntText, if_pos, pyInt_field ha hd hb]
  rw [List.all_eq_true]
  intro c hc
  have := field_chars ha hd hb c hc
  simp only [Bool.and_eq_true, decide_eq_true_eq, Bool.not_eq_true', Bool.and_eq_false_iff, decide_eq_false_iff_not]
  omega

theorem pageList_fields (other : PyStr → Except PyErr Int) {s : PyStr} {ns : List Nat} (h : PageList s ns) :
    s ≠ [] ∧ pageIndexes other (splitComma s) = .ok (ns.map fun n : Nat => (n : Int) - 1) := by
  induction h with
  | @one a ds b ha hd hb =>
    refine ⟨fun h => hd.1 (by simp_all), ?_⟩
    rw [splitComma_none fun c hc => by have := field_chars ha hd hb c hc; omega, pageIndexes, field_int other ha hd hb]
    rfl
  | @cons a ds b s ns ha hd hb hs ih =>
    refine ⟨by simp [pstr], ?_⟩
    have hc : pstr "," = [0x2c] := rfl
    rw [hc, List.append_assoc _ [0x2c] s, List.singleton_append, splitComma_cons fun c hc => by have := field_chars ha hd hb c hc; omega, pageIndexes, field_int other ha hd hb]
    dsimp only
    rw [ih.2]
    rfl

theorem asks_pages (other : PyStr → Except PyErr Int) {t : Option PyStr} {ns : Option (List Nat)} (h : Asks t ns) :
    cliPages other t = .ok ((ns.getD []).map fun n : Nat => (n : Int) - 1) := by
  cases h with
  | all => rfl
  | empty => rfl
  | @some s ns h =>
    obtain ⟨h1, h2⟩ := pageList_fields other h
    cases s with
    | nil => exact absurd rfl h1
    | cons c s => exact h2

theorem pageList_ne {s : PyStr} {ns : List Nat} (h : PageList s ns) : ns ≠ [] := by cases h <;> simp

/-- The numbers on the command line count from one. -/
theorem chosen_asked {α : Type} {t : Option PyStr} {ns : Option (List Nat)} (h : Asks t ns) (l : List α) :
    asked ((ns.getD []).map fun n : Nat => (n : Int) - 1) 0 l = chosen ns l := by
  cases h with
  | all => simp [asked, chosen, Wanted]
  | empty => simp [asked, chosen, Wanted]
  | @some s ns h =>
    have hne := pageList_ne h
    have key : ∀ (l : List α) k, ((l.zipIdx k).filter fun x => decide (Wanted (ns.map fun n : Nat => (n : Int) - 1) x.2 ∧
        ∀ j < x.2, Wanted (ns.map fun n : Nat => (n : Int) - 1) j → 0 = 0 ∨ j + 1 < 0)).map Prod.fst = ((l.zipIdx (k + 1)).filter fun x => decide (x.2 ∈ ns)).map Prod.fst := by
      intro l
      induction l with
      | nil => intro k; rfl
      | cons x l ih =>
        intro k
        have hk : (Wanted (ns.map fun n : Nat => (n : Int) - 1) k ∧ ∀ j < k, Wanted (ns.map fun n : Nat => (n : Int) - 1) j → 0 = 0 ∨ j + 1 < 0) ↔ k + 1 ∈ ns := by
          constructor
          · rintro ⟨h | h, -⟩
            · exact absurd (List.map_eq_nil_iff.1 h) hne
            · obtain ⟨n, hn, e⟩ := List.mem_map.1 h
              have : n = k + 1 := by omega
              exact this ▸ hn
          · intro h
            exact ⟨.inr (List.mem_map.2 ⟨k + 1, h, by push_cast; omega⟩), fun _ _ _ => .inl rfl⟩
        rw [List.zipIdx_cons, List.zipIdx_cons, List.filter_cons, List.filter_cons]
        by_cases hm : k + 1 ∈ ns
        · rw [if_pos (by simpa using hk.2 hm), if_pos (by simpa using hm), List.map_cons, List.map_cons, ih]
        · rw [if_neg (by simpa using fun h => hm (hk.1 h)), if_neg (by simpa using hm), ih]
    exact key l 0

/-! ### The files -/

section
variable (isWord : Nat → Bool) (canOpen : PyStr → Bool) (W : OutEnv) (S : Setup) (garbled : Bytes) (other : PyStr → Except PyErr Int) (fuel : Nat) (F : Files) (a : CliArgs)

theorem cliRun_plain {file : PyStr} {ns : Option (List Nat)} (hf : a.files = [file]) (ho : a.outputFile = pstr "-") (hp : Asks a.pagenos ns) :
    cliRun isWord canOpen W S garbled other fuel F a =
      match convertFileRun isWord canOpen W S garbled
        { caching := !a.disableCaching, maxpages := a.maxpages, pagenos := (ns.getD []).map fun n : Nat => (n : Int) - 1, password := a.password } fuel F file none (pstr "html") with
      | (G, .done) => (G, .status 0)
      | (G, r) => (G, .failed r) := by
  have ht : cliType a = pstr "html" := by rw [cliType, if_neg fun h => h.2 ho]
  rw [cliRun, asks_pages other hp]
  dsimp only
  rw [hf]
  dsimp only
  rw [if_neg (fun h => h ho), ht]
  rfl

/-- **C108, one file.** With one file and no output file the command does what `convert_file` does for HTML, with the pages of the list counted from one: the same files
change, and the status is 0 exactly if that call ends without an exception. -/
theorem cli_converts {file : PyStr} {ns : Option (List Nat)} (hf : a.files = [file]) (ho : a.outputFile = pstr "-") (hp : Asks a.pagenos ns) (opts : Options)
    (hopts : opts = { caching := !a.disableCaching, maxpages := a.maxpages, pagenos := (ns.getD []).map fun n : Nat => (n : Int) - 1, password := a.password }) :
    (cliRun isWord canOpen W S garbled other fuel F a).1 = (convertFileRun isWord canOpen W S garbled opts fuel F file none (pstr "html")).1 ∧
    ((cliRun isWord canOpen W S garbled other fuel F a).2 = .status 0 ↔ (convertFileRun isWord canOpen W S garbled opts fuel F file none (pstr "html")).2 = .done) ∧
    ∀ e, (cliRun isWord canOpen W S garbled other fuel F a).2 = .failed (.raised e) ↔ (convertFileRun isWord canOpen W S garbled opts fuel F file none (pstr "html")).2 = .raised e := by
  subst hopts
  rw [cliRun_plain isWord canOpen W S garbled other fuel F a hf ho hp]
  rcases convertFileRun isWord canOpen W S garbled _ fuel F file none (pstr "html") with ⟨G, r⟩
  cases r <;> simp

/-- **C108, several files.** With no file or several files nothing happens, and the status is 1. -/
theorem cli_many {ns : Option (List Nat)} (hf : a.files.length ≠ 1) (hp : Asks a.pagenos ns) : cliRun isWord canOpen W S garbled other fuel F a = (F, .status 1) := by
  rw [cliRun, asks_pages other hp]
  dsimp only
  split
  · rename_i h; rw [h] at hf; exact absurd rfl hf
  · rfl

/-- **C108, a wrong list of pages.** If some entry of the list is no number for `int`, the command stops before any file is opened. -/
theorem cli_pages_refused {s : PyStr} (hs : a.pagenos = some s) (hne : s ≠ []) {x : PyStr} (hx : x ∈ splitComma s) (hv : ∀ n, pyIntText other x ≠ .ok n) :
    ∃ e, cliRun isWord canOpen W S garbled other fuel F a = (F, .failed (.raised e)) := by
  have h1 : ∃ e, cliPages other a.pagenos = .error e := by
    rw [hs]
    cases s with
    | nil => exact absurd rfl hne
    | cons c s =>
      show ∃ e, pageIndexes other (splitComma (c :: s)) = .error e
      generalize splitComma (c :: s) = l at hx
      induction l with
      | nil => cases hx
      | cons y l ih =>
        rw [pageIndexes]
        rcases h : pyIntText other y with e | n
        · exact ⟨e, rfl⟩
        · have : x ∈ l := by
            rcases List.mem_cons.1 hx with rfl | hx
            · exact absurd h (hv n)
            · exact hx
          obtain ⟨e, he⟩ := ih this
          exact ⟨e, by dsimp only; rw [he]⟩
  obtain ⟨e, he⟩ := h1
  exact ⟨e, by rw [cliRun, he]⟩

/-- **C108, the output type.** Without an output file the argument `--output-type` changes nothing: what is written is always HTML (see `cli_converts`). -/
theorem cli_type_counterexample (ho : a.outputFile = pstr "-") (t : PyStr) :
    cliRun isWord canOpen W S garbled other fuel F { a with outputType := t } = cliRun isWord canOpen W S garbled other fuel F a := by
  have h1 : ∀ b : CliArgs, b.outputFile = pstr "-" → cliType b = pstr "html" := fun b hb => by rw [cliType, if_neg fun h => h.2 hb]
  rw [cliRun, cliRun, h1 a ho, h1 { a with outputType := t } ho]

/-- **C108, the output file.** With `--output-file` no conversion ever happens: the file is emptied, and `TypeError` is raised. If it is the input, the document is lost. -/
theorem cli_output_counterexample {file : PyStr} {ns : Option (List Nat)} (hf : a.files = [file]) (ho : a.outputFile ≠ pstr "-") (hc : canOpen a.outputFile = true)
    (hp : Asks a.pagenos ns) :
    (cliRun isWord canOpen W S garbled other fuel F a).2 = .failed (.raised .typeError) ∧ (cliRun isWord canOpen W S garbled other fuel F a).1 a.outputFile = some [] ∧
    ∀ p, p ≠ a.outputFile → (cliRun isWord canOpen W S garbled other fuel F a).1 p = F p := by
  have h : cliRun isWord canOpen W S garbled other fuel F a = (F.write a.outputFile [], .failed (.raised .typeError)) := by
    rw [cliRun, asks_pages other hp]
    dsimp only
    rw [hf]
    dsimp only
    rw [if_pos ho, if_pos hc]
  rw [h]
  exact ⟨rfl, by simp [Files.write], fun p hp => by simp [Files.write, hp]⟩

/-- **C108, frame.** Whatever the arguments are, the only file that may change is the output file that is named, which is empty then, or, if none is named, the file
that `convert_file` chooses for the one input. -/
theorem cli_frame (p : PyStr) (h : (cliRun isWord canOpen W S garbled other fuel F a).1 p ≠ F p) : ∃ file, a.files = [file] ∧
    ((a.outputFile ≠ pstr "-" ∧ p = a.outputFile ∧ (cliRun isWord canOpen W S garbled other fuel F a).1 p = some []) ∨
      (a.outputFile = pstr "-" ∧ ∃ c, convertFile isWord file none (pstr "html") = .ok (c, p))) := by
  revert h
  rw [cliRun]
  rcases cliPages other a.pagenos with e | pages
  · exact fun h => absurd rfl h
  · dsimp only
    split
    · rename_i file hf
      intro h
      refine ⟨file, hf, ?_⟩
      by_cases ho : a.outputFile = pstr "-"
      · right
        have ht : cliType a = pstr "html" := by rw [cliType, if_neg fun h => h.2 ho]
        rw [if_neg (fun h => h ho), ht] at h
        refine ⟨ho, convert_file_frame isWord canOpen W S garbled { caching := !a.disableCaching, maxpages := a.maxpages, pagenos := pages, password := a.password } fuel F file none
          (pstr "html") p fun hh => h ?_⟩
        · rw [← hh]
          split <;> rename_i heq
          · rw [heq]
          · rw [heq]
      · left
        rw [if_pos ho] at h ⊢
        by_cases hc : canOpen a.outputFile = true
        · rw [if_pos hc] at h ⊢
          have hp : p = a.outputFile := by
            by_contra hp
            exact h (by simp [Files.write, hp])
          exact ⟨ho, hp, by simp [Files.write, hp]⟩
        · rw [if_neg hc] at h
          exact absurd rfl h
    · exact fun h => absurd rfl h

end

/-- **C108, end to end.** `pdfconvert [--pagenos LIST] dir/stem.pdf`, for a document that was written with pages of lines in Helvetica (see C92 and C98), makes a file `dir/stem.html`:
an HTML document that shows the lines of the pages in the list, counted from one, in their order. Nothing else changes, and the status is 0. -/
theorem cli_lines (isWord : Nat → Bool) (hw : WordClass isWord) (hpdf : ∀ c ∈ pstr "pdf", isWord c = true) {dir : PyStr} (hd : DirPart dir) (stem : PyStr)
    (hs : ∀ c ∈ stem, c ≠ '/'.toNat) (canOpen : PyStr → Bool) (ho : canOpen (dir ++ stem ++ pstr "." ++ pstr "html") = true) (W : OutEnv) (hW : HtmlOk W.toHtmlEnv) (S : Setup)
    (hS : Furnished S) (garbled : Bytes) (other : PyStr → Except PyErr Int) (F : Files) (pages : List (List Bytes)) (texts : List (List PyStr))
    (hn : ∀ lines ∈ pages, ∀ s ∈ lines, s ≠ []) (hp : List.Forall₂ (List.Forall₂ WinText) pages texts) (hm : ∀ lines ∈ texts, ∀ t ∈ lines, NoMarkup t)
    (hF : F (dir ++ stem ++ pstr "." ++ pstr "pdf") = some (writeText helvetica pages))
    (a : CliArgs) (hfiles : a.files = [dir ++ stem ++ pstr "." ++ pstr "pdf"]) (hout : a.outputFile = pstr "-") (hmax : a.maxpages = 0) {ns : Option (List Nat)}
    (hns : Asks a.pagenos ns) (hne : chosen ns texts ≠ []) : ∃ f, (∃ k R, buildFont (S.fontEnv R) k helvetica = .ok f) ∧ (HtmlFont W.toHtmlEnv f → W.fontWeight f ≠ none →
      ∃ N, ∀ fuel ≥ N, ∃ file ev, XmlContent file ev ∧ visible ev = inked sheet ++ inked ((chosen ns texts).map List.flatten).flatten ∧
        ∀ b, Utf8 b file → ∃ G, cliRun isWord canOpen W S garbled other fuel F a = (G, .status 0) ∧ G (dir ++ stem ++ pstr "." ++ pstr "html") = some b ∧
          ∀ p, p ≠ dir ++ stem ++ pstr "." ++ pstr "html" → G p = F p) := by
  obtain ⟨f, h1, outs, h2, N, h3⟩ := written_lines S hS { caching := !a.disableCaching, maxpages := a.maxpages, pagenos := (ns.getD []).map fun n : Nat => (n : Int) - 1, password := a.password }
    pages texts hn hp 0 hmax (by rw [chosen_asked hns]; exact hne)
  refine ⟨f, h1, fun hfont hwt => ⟨N, fun fuel hf => ?_⟩⟩
  have h4 := (h3 fuel hf).2
  rw [chosen_asked hns] at h4
  obtain ⟨file, ev, k1, k2, k3⟩ := h4.html W.toHtmlEnv (pstr "utf-8") hW (val_lit _ (by decide)) hfont hwt (by
    intro lines hl
    refine hm lines ?_
    rw [← chosen_asked hns] at hl
    exact mem_asked hl)
  refine ⟨file, ev, k2, k3, fun b hb => ?_⟩
  obtain ⟨c, hc, hconv⟩ := default_output hw hd stem (pstr "pdf") hs (by decide) hpdf (pstr "html") (by decide)
  have hct : c = .html := by
    have : converterOf (pstr "html") = some .html := by decide
    rw [this] at hc; cases hc; rfl
  subst hct
  have hio : dir ++ stem ++ pstr "." ++ pstr "html" ≠ dir ++ stem ++ pstr "." ++ pstr "pdf" := by
    intro h
    have := List.append_cancel_left h
    revert this
    decide
  obtain ⟨text, r, m1, m2, -⟩ := convert_file_writes isWord canOpen W S garbled
    { caching := !a.disableCaching, maxpages := a.maxpages, pagenos := (ns.getD []).map fun n : Nat => (n : Int) - 1, password := a.password } fuel F _ none (pstr "html") hconv ho hio hF
  have m3 : convertHtml W.toHtmlEnv (pstr "utf-8") S _ fuel _ = (text, r) := m1
  rw [k1] at m3
  cases m3
  obtain ⟨n1, n2⟩ := m2 b hb
  obtain ⟨c1, c2, -⟩ := cli_converts isWord canOpen W S garbled other fuel F a hfiles hout hns _ rfl
  refine ⟨_, Prod.ext rfl (c2.2 n2), (congrFun c1 _).trans n1, fun p hpne => ?_⟩
  by_contra h
  replace h := fun hh => h ((congrFun c1 p).trans hh)
  obtain ⟨c, hc'⟩ := convert_file_frame isWord canOpen W S garbled _ fuel F _ none (pstr "html") p h
  rw [hconv] at hc'
  cases hc'
  exact hpne rfl

/-! ### Examples -/

/-- A list with a blank. -/
theorem list_one_three : PageList (pstr "1, 3") [1, 3] :=
  .cons (a := []) (ds := asc "1") (b := []) (s := pstr " 3") (by simp [Blanks]) ⟨by decide, by decide⟩ (by simp [Blanks])
    (.one (a := pstr " ") (ds := asc "3") (b := []) (by unfold Blanks; decide) ⟨by decide, by decide⟩ (by simp [Blanks]))

example : chosen (some [1, 3]) ["first", "second", "third"] = ["first", "third"] := by decide

/-- The page 3 of three. -/
example : ∃ N, ∀ fuel ≥ N, ∃ file ev, XmlContent file ev ∧ visible ev = inked sheet ++ pstr "ld" ∧ ∀ b, Utf8 b file → ∃ G,
    cliRun letters (fun _ => true) sampleOut sampleSetup [] (fun _ => .error .valueError) fuel (oneFile (writeText helvetica [[asc "Hello"], [asc "Wor"], [asc "ld"]]))
      { files := [pstr "a/x.pdf"], pagenos := some (pstr "3"), outputType := pstr "xml" } = (G, .status 0) ∧ G (pstr "a/x.html") = some b ∧ G (pstr "a/x.xml") = none := by
  have hl : PageList (pstr "3") [3] := .one (a := []) (ds := asc "3") (b := []) (by simp [Blanks]) ⟨by decide, by decide⟩ (by simp [Blanks])
  have hc : chosen (some [3]) [[pstr "Hello"], [pstr "Wor"], [pstr "ld"]] = [[pstr "ld"]] := by decide
  obtain ⟨f, -, h⟩ := cli_lines letters letters_word (by decide) (dir := pstr "a/") (.sub [] 97 (by decide)) (pstr "x") (by decide) (fun _ => true) rfl sampleOut sampleHtml_ok
    sampleSetup sample_furnished [] (fun _ => .error .valueError) (oneFile (writeText helvetica [[asc "Hello"], [asc "Wor"], [asc "ld"]])) [[asc "Hello"], [asc "Wor"], [asc "ld"]]
    [[pstr "Hello"], [pstr "Wor"], [pstr "ld"]] (by decide)
    (.cons (.cons ⟨(pstr "Hello").map fun c => [c], by decide +kernel, rfl⟩ .nil) (.cons (.cons ⟨(pstr "Wor").map fun c => [c], by decide +kernel, rfl⟩ .nil)
      (.cons (.cons ⟨(pstr "ld").map fun c => [c], by decide +kernel, rfl⟩ .nil) .nil)))
    (by unfold NoMarkup; decide) rfl { files := [pstr "a/x.pdf"], pagenos := some (pstr "3"), outputType := pstr "xml" } rfl rfl rfl (.some hl) (by rw [hc]; simp)

  obtain ⟨N, hN⟩ := h (sampleHtml_font f) (by simp [sampleOut, sampleHtml])
  refine ⟨N, fun fuel hf => ?_⟩
  obtain ⟨file, ev, h1, h2, h3⟩ := hN fuel hf
  rw [hc] at h2
  refine ⟨file, ev, h1, h2.trans (by congr 1), fun b hb => ?_⟩
  obtain ⟨G, g1, g2, g3⟩ := h3 b hb
  exact ⟨G, g1, g2, (g3 _ (by decide)).trans rfl⟩

/-- The input as the output file. -/
example (data : Bytes) : (cliRun letters (fun _ => true) sampleOut sampleSetup [] (fun _ => .error .valueError) 5 (oneFile data)
    { files := [pstr "a/x.pdf"], outputFile := pstr "a/x.pdf" }).1 (pstr "a/x.pdf") = some [] :=
  (cli_output_counterexample letters (fun _ => true) sampleOut sampleSetup [] (fun _ => .error .valueError) 5 (oneFile data)
    { files := [pstr "a/x.pdf"], outputFile := pstr "a/x.pdf" } rfl (by decide) rfl .all).2.1

/-- A list that is no list of numbers. -/
example (F : Files) : ∃ e, cliRun letters (fun _ => true) sampleOut sampleSetup [] (fun _ => .error .valueError) 5 F { files := [pstr "a/x.pdf"], pagenos := some (pstr "1,,2") } =
    (F, .failed (.raised e)) :=
  cli_pages_refused letters (fun _ => true) sampleOut sampleSetup [] (fun _ => .error .valueError) 5 F _ (s := pstr "1,,2") rfl (by decide) (x := []) (by decide)
    (by intro n h; exact absurd h (by rw [show pyIntText (fun _ => .error .valueError) [] = .error .valueError by decide]; simp))

end Pdf

import Verif.Spec.Paths
import Mathlib.Tactic.Linarith
import Mathlib.Tactic.SplitIfs
import Mathlib.Tactic.Tauto
/-! Property C52: the output path of `convert_file`. -/

namespace Pdf

theorem takeWhile_append_stop {α} (p : α → Bool) (a : List α) (x : α) (b : List α) (ha : ∀ c ∈ a, p c = true) (hx : p x = false) :
    (a ++ x :: b).takeWhile p = a ∧ (a ++ x :: b).dropWhile p = x :: b := by
  induction a with
  | nil => simp [hx]
  | cons c cs ih =>
    obtain ⟨h1, h2⟩ := ih (fun c h => ha c (by simp [h]))
    simp [ha c (by simp), h1, h2]

theorem takeWhile_whole {α} (p : α → Bool) (a : List α) (ha : ∀ c ∈ a, p c = true) : a.takeWhile p = a ∧ a.dropWhile p = [] := by
  induction a with
  | nil => simp
  | cons c cs ih =>
    obtain ⟨h1, h2⟩ := ih (fun c h => ha c (by simp [h]))
    simp [ha c (by simp), h1, h2]

/-- The head and the last component of a path, for every directory part and file name. -/
theorem path_split (dir name : PyStr) (hd : dir = [] ∨ ∃ d, dir = d ++ [0x2f]) (hn : ∀ c ∈ name, c ≠ 0x2f) :
    pathHead (dir ++ name) = dir ∧ pathBase (dir ++ name) = name := by
  have hp : ∀ c ∈ name.reverse, (c != 0x2f) = true := by
    intro c hc; simpa using hn c (List.mem_reverse.1 hc)
  unfold pathHead pathBase
  rw [List.reverse_append]
  rcases hd with rfl | ⟨d, rfl⟩
  · obtain ⟨h1, h2⟩ := takeWhile_whole (fun c => c != 0x2f) name.reverse hp
    simp only [List.reverse_nil, List.append_nil]
    rw [h1, h2]; simp
  · rw [List.reverse_append]
    obtain ⟨h1, h2⟩ := takeWhile_append_stop (fun c => c != 0x2f) name.reverse 0x2f d.reverse hp rfl
    simp only [List.reverse_cons, List.reverse_nil, List.nil_append, List.cons_append]
    rw [h1, h2]; simp

theorem Spec.DirPart.form {dir : PyStr} (h : Spec.DirPart dir) : dir = [] ∨ ∃ d, dir = d ++ [0x2f] := by
  cases h with
  | here => exact .inl rfl
  | root => exact .inr ⟨[], rfl⟩
  | sub d c hc => exact .inr ⟨d ++ [c], rfl⟩

/-- Joining the directory of a path with a file name keeps the directory part. -/
theorem join_dir {dir : PyStr} (h : Spec.DirPart dir) (name name' : PyStr) (hn : ∀ c ∈ name, c ≠ 0x2f) (hn' : ∀ c ∈ name', c ≠ 0x2f) :
    pathJoin (pathDir (dir ++ name)) name' = dir ++ name' := by
  have hj : ∀ a, pathJoin a name' = if a = [] ∨ a.getLast? = some 0x2f then a ++ name' else a ++ [0x2f] ++ name' := by
    intro a
    cases name' with
    | nil => rfl
    | cons c cs =>
      have : c ≠ 0x2f := hn' c (by simp)
      unfold pathJoin
      split
      · next heq => cases heq; exact absurd rfl this
      · rfl
  rw [hj]
  unfold pathDir
  rw [(path_split dir name h.form hn).1]
  cases h with
  | here => simp
  | root =>
    have : pstr "/" = [0x2f] := rfl
    rw [this]; simp
  | sub d c hc =>
    have hc' : (c == 0x2f) = false := by simpa using hc
    have e : pstr "/" = [0x2f] := rfl
    rw [e, if_neg (by simp [show ¬ c = 0x2f from hc])]
    have : (d ++ [c] ++ [0x2f]).reverse = [0x2f] ++ c :: d.reverse := by simp
    rw [this, (takeWhile_append_stop (fun c => c == 0x2f) [0x2f] c d.reverse (by simp) hc').2]
    have hl : ((c :: d.reverse).reverse) = d ++ [c] := by simp
    rw [hl, if_neg (by simp [show ¬ c = 0x2f from hc])]

theorem sub_extension {isWord : Nat → Bool} (hw : Spec.WordClass isWord) (pre ext outType : PyStr) (he : ext ≠ []) (hx : ∀ c ∈ ext, isWord c = true) :
    subExtension isWord outType (pre ++ [0x2e] ++ ext) = pre ++ [0x2e] ++ outType := by
  have hnl : ¬ (pre ++ [0x2e] ++ ext).getLast? = some 0x0a := by
    intro h
    have hm : (0x0a : Nat) ∈ ext := by
      rw [List.getLast?_append] at h
      cases hl : ext.getLast? with
      | none => exact absurd (List.getLast?_eq_none_iff.1 hl) he
      | some y =>
        rw [hl] at h
        simp only [Option.some_or, Option.some.injEq] at h
        subst h
        exact List.mem_of_getLast? hl
    have := hx 0x0a hm
    rw [show isWord 0x0a = false from hw.newline] at this; cases this
  have hr : (pre ++ [0x2e] ++ ext).reverse = ext.reverse ++ 0x2e :: pre.reverse := by simp
  obtain ⟨h1, h2⟩ := takeWhile_append_stop isWord ext.reverse 0x2e pre.reverse (fun c hc => hx c (List.mem_reverse.1 hc)) hw.dot
  unfold subExtension
  simp only [hnl, if_false]
  rw [hr, h1, h2]
  simp [he]

theorem type_found (x t : PyStr) : endsWithType t (x ++ t) = true := by
  unfold endsWithType
  simp

theorem converterOf_some {t : PyStr} : (∃ c, converterOf t = some c) ↔ t ∈ Spec.outTypes := by
  unfold converterOf Spec.outTypes
  simp only [List.mem_cons, List.not_mem_nil, or_false]
  generalize pstr "html" = a1
  generalize pstr "xml" = a2
  generalize pstr "json" = a3
  generalize pstr "yaml" = a4
  generalize pstr "yml" = a5
  generalize pstr "text" = a6
  by_cases h1 : t = a1
  · simp only [if_pos h1]; exact ⟨fun _ => by simp [h1], fun _ => ⟨_, rfl⟩⟩
  by_cases h2 : t = a2
  · simp only [if_neg h1, if_pos h2]; exact ⟨fun _ => by simp [h2], fun _ => ⟨_, rfl⟩⟩
  by_cases h3 : t = a3
  · simp only [if_neg h1, if_neg h2, if_pos h3]; exact ⟨fun _ => by simp [h3], fun _ => ⟨_, rfl⟩⟩
  by_cases h45 : t = a4 ∨ t = a5
  · simp only [if_neg h1, if_neg h2, if_neg h3, if_pos h45]
    exact ⟨fun _ => by rcases h45 with h | h <;> simp [h], fun _ => ⟨_, rfl⟩⟩
  by_cases h6 : t = a6
  · simp only [if_neg h1, if_neg h2, if_neg h3, if_neg h45, if_pos h6]
    exact ⟨fun _ => by simp [h6], fun _ => ⟨_, rfl⟩⟩
  · simp only [if_neg h1, if_neg h2, if_neg h3, if_neg h45, if_neg h6]
    simp only [not_or] at h45
    simp [h1, h2, h3, h45.1, h45.2, h6]

/-- **C52.** Without an output path, the output of converting `dir/stem.ext` is `dir/stem.type`: the same directory and name with the
extension replaced, for every documented type. -/
theorem default_output {isWord : Nat → Bool} (hw : Spec.WordClass isWord) {dir : PyStr} (hd : Spec.DirPart dir) (stem ext : PyStr)
    (hs : ∀ c ∈ stem, c ≠ '/'.toNat) (he : ext ≠ []) (hx : ∀ c ∈ ext, isWord c = true) (t : PyStr) (ht : t ∈ Spec.outTypes) :
    ∃ c, converterOf t = some c ∧
      convertFile isWord (dir ++ stem ++ pstr "." ++ ext) none t = .ok (c, dir ++ stem ++ pstr "." ++ t) := by
  obtain ⟨c, hc⟩ := converterOf_some.2 ht
  refine ⟨c, hc, ?_⟩
  have ed : pstr "." = [0x2e] := rfl
  have hslash : ∀ c ∈ t, c ≠ 0x2f := by
    have : ∀ t ∈ Spec.outTypes, ∀ c ∈ t, c ≠ 0x2f := by decide
    exact this t ht
  have n1 : ∀ c ∈ stem ++ [0x2e] ++ ext, c ≠ 0x2f := by
    intro c hc e
    simp only [List.mem_append, List.mem_singleton] at hc
    rcases hc with (h | h) | h
    · exact hs c h e
    · omega
    · have := hx c h; rw [e, show isWord 0x2f = false from hw.slash] at this; cases this
  have n2 : ∀ c ∈ stem ++ [0x2e] ++ t, c ≠ 0x2f := by
    intro c hc e
    simp only [List.mem_append, List.mem_singleton] at hc
    rcases hc with (h | h) | h
    · exact hs c h e
    · omega
    · exact hslash c h e
  have e1 : dir ++ stem ++ [0x2e] ++ ext = dir ++ (stem ++ [0x2e] ++ ext) := by simp
  have e2 : subExtension isWord t (dir ++ stem ++ [0x2e] ++ ext) = dir ++ (stem ++ [0x2e] ++ t) := by
    rw [sub_extension hw (dir ++ stem) ext t he hx]; simp
  have out : pathJoin (pathDir (dir ++ stem ++ [0x2e] ++ ext)) (pathBase (subExtension isWord t (dir ++ stem ++ [0x2e] ++ ext))) =
      dir ++ stem ++ [0x2e] ++ t := by
    rw [e2, (path_split dir _ hd.form n2).2, e1, join_dir hd _ _ n1 n2]; simp
  unfold convertFile
  rw [ed]
  simp only [Option.getD_none]
  rw [out, if_neg (by rw [type_found]; simp), hc]

/-- **C52 (partial).** The default output path differs from the input path whenever the extension of the input is not the output type. A
path given explicitly is used as it is. -/
theorem output_fresh_partial {isWord : Nat → Bool} (hw : Spec.WordClass isWord) {dir : PyStr} (hd : Spec.DirPart dir) (stem ext : PyStr)
    (hs : ∀ c ∈ stem, c ≠ '/'.toNat) (he : ext ≠ []) (hx : ∀ c ∈ ext, isWord c = true) (t : PyStr) (hne : ext ≠ t) (c : Converter) (out : PyStr)
    (h : convertFile isWord (dir ++ stem ++ pstr "." ++ ext) none t = .ok (c, out)) : out ≠ dir ++ stem ++ pstr "." ++ ext := by
  have ht : t ∈ Spec.outTypes := by
    apply converterOf_some.1
    unfold convertFile at h
    simp only at h
    split at h
    · cases h
    · generalize converterOf t = o at h ⊢
      match o with
      | none => cases h
      | some c => exact ⟨c, rfl⟩
  obtain ⟨c', hc, h'⟩ := default_output hw hd stem ext hs he hx t ht
  rw [h'] at h
  cases h
  intro e
  exact hne (List.append_cancel_left e).symm

/-- **C52.** Whatever the paths, a conversion is started only for a documented type, with the converter of that type, and the output
path ends with the type (a newline may follow). -/
theorem output_type {isWord : Nat → Bool} (input : PyStr) (output : Option PyStr) (t : PyStr) (c : Converter) (out : PyStr)
    (h : convertFile isWord input output t = .ok (c, out)) :
    t ∈ Spec.outTypes ∧ converterOf t = some c ∧ (t <:+ out ∨ t ++ pstr "\n" <:+ out) ∧ ∀ o, output = some o → out = o := by
  unfold convertFile at h
  simp only at h
  generalize ho : output.getD (pathJoin (pathDir input) (pathBase (subExtension isWord t input))) = o at h
  cases he : endsWithType t o with
  | false => rw [if_pos he] at h; cases h
  | true =>
    rw [if_neg (by rw [he]; simp)] at h
    generalize hc : converterOf t = k at h
    match k with
    | none => cases h
    | some k =>
      cases h
      refine ⟨converterOf_some.1 ⟨_, hc⟩, rfl, ?_, ?_⟩
      · unfold endsWithType at he
        simpa [show pstr "\n" = [0x0a] from rfl] using he
      · rintro o' rfl; exact ho.symm

/-- **C52.** Any other type, and an explicit path that does not end with the type, is refused. -/
theorem output_refused {isWord : Nat → Bool} (input : PyStr) (output : Option PyStr) (t : PyStr) :
    (t ∉ Spec.outTypes → convertFile isWord input output t = .error .converter) ∧
    (∀ o, ¬ t <:+ o → ¬ t ++ pstr "\n" <:+ o → convertFile isWord input (some o) t = .error .converter) := by
  constructor
  · intro h
    have : converterOf t = none := by
      generalize hc : converterOf t = k
      match k with
      | none => rfl
      | some k => exact absurd (converterOf_some.1 ⟨k, hc⟩) h
    unfold convertFile
    simp only [this]
    split <;> rfl
  · intro o h1 h2
    have e : endsWithType t o = false := by
      unfold endsWithType
      have : pstr "\n" = [0x0a] := rfl
      rw [this] at h2
      simp [h1, h2]
    unfold convertFile
    simp only [Option.getD_some, e]
    rfl

/-- Letters, for the examples. -/
def Spec.letters (c : Nat) : Bool := decide (97 ≤ c ∧ c ≤ 122)

theorem Spec.letters_word : Spec.WordClass Spec.letters := ⟨by decide, by decide, by decide⟩

example : convertFile Spec.letters (pstr "/tmp/a.b.pdf") none (pstr "json") = .ok (.json, pstr "/tmp/a.b.json") := by
  obtain ⟨c, hc, h⟩ := default_output Spec.letters_word (dir := pstr "/tmp/") (.sub (pstr "/tm") 112 (by decide)) (pstr "a.b") (pstr "pdf")
    (by decide) (by decide) (by decide) (pstr "json") (by decide)
  have : c = .json := by
    have : converterOf (pstr "json") = some .json := by decide
    rw [this] at hc; cases hc; rfl
  subst this
  exact h

/-- Counterexamples to the full statement: an input whose extension is already the type is overwritten, an input without extension
whose name ends with the type too, and an explicit output path may be the input. -/
theorem overwrite_counterexample :
    convertFile Spec.letters (pstr "in/x.html") none (pstr "html") = .ok (.html, pstr "in/x.html") ∧
    convertFile Spec.letters (pstr "in/xhtml") none (pstr "html") = .ok (.html, pstr "in/xhtml") ∧
    convertFile Spec.letters (pstr "x.xml") (some (pstr "x.xml")) (pstr "xml") = .ok (.xml, pstr "x.xml") := by
  refine ⟨?_, ?_, ?_⟩ <;> decide

end Pdf

import Verif.Props.Encoding
/-! C79: the built-in character encodings. -/

namespace Pdf
open Spec (TextOf)

/-- The glyph list restricted to the Latin names, as a function. -/
def latinGlyphs (n : PyStr) : Option PyStr := (dictGet Spec.adobeLatin n).map fun u => [u]

theorem encodingTables_congr {g g' : PyStr → Option PyStr} {l : List (PyStr × Option Nat × Option Nat × Option Nat × Option Nat)}
    (h : ∀ e ∈ l, g e.1 = g' e.1) (t : CodeMap × CodeMap × CodeMap × CodeMap) : encodingTables g l t = encodingTables g' l t := by
  induction l generalizing t with
  | nil => rfl
  | cons e l ih =>
    obtain ⟨name, a, b, c, d⟩ := e
    obtain ⟨ts, tm, tw, tp⟩ := t
    have h1 : name2unicodeStr g name = name2unicodeStr g' name := by
      have := h _ (List.mem_cons_self)
      simp only at this
      simp [name2unicodeStr, this]
    simp only [encodingTables, h1]
    split
    · rfl
    · exact ih (fun e he => h e (List.mem_cons_of_mem _ he)) _

theorem dictGet_some_mem {κ α : Type} [DecidableEq κ] {d : List (κ × α)} {k : κ} {v : α} (h : dictGet d k = some v) : (k, v) ∈ d := by
  induction d with
  | nil => cases h
  | cons e d ih =>
    obtain ⟨k', v'⟩ := e
    rw [dictGet] at h
    split at h
    · rename_i hk; cases h; subst hk; exact List.mem_cons_self
    · exact List.mem_cons_of_mem _ (ih h)

/-- All glyph names of the table are in the glyph list. -/
theorem latin_names_known : ∀ e ∈ latinEncoding, ∃ u, (e.1, u) ∈ Spec.adobeLatin ∧ latinGlyphs e.1 = some [u] := by
  have h : latinEncoding.all (fun e => (dictGet Spec.adobeLatin e.1).isSome) = true := by decide +kernel
  intro e he
  have h1 := List.all_eq_true.1 h e he
  obtain ⟨u, hu⟩ := Option.isSome_iff_exists.1 h1
  exact ⟨u, dictGet_some_mem hu, by simp [latinGlyphs, hu]⟩

theorem initial_latin {glyphs : PyStr → Option PyStr} (hG : Spec.AdobeLatin glyphs) : EncHeap.initial glyphs = EncHeap.initial latinGlyphs := by
  unfold EncHeap.initial
  rw [encodingTables_congr (g' := latinGlyphs)]
  intro e he
  obtain ⟨u, hu, hl⟩ := latin_names_known e he
  rw [hl, hG _ hu]

/-- The check of the built-in tables against the specification. -/
def tablesRight (h0 : EncHeap) : Bool :=
  Spec.builtinEncodings.all fun e =>
    let t := h0.getD (encodingAddr (encodingAddr.asciiName e.1)) []
    ((List.range 256).all fun c => dictGet t (c : Int) = (e.2 c).map fun ch => [ch.toNat]) && t.all fun x => 0 ≤ x.1 && x.1 < 256

theorem tables_right : (match EncHeap.initial latinGlyphs with | .ok h0 => tablesRight h0 | .error _ => false) = true := by
  decide +kernel

theorem spec_high {e : String × (Nat → Option Char)} (he : e ∈ Spec.builtinEncodings) {c : Nat} (hc : 256 ≤ c) : e.2 c = none := by
  have hs : ∀ x ∈ Spec.stdHigh, x.1 < 256 := by decide
  have h1 : (Spec.stdHigh.find? fun e => e.1 == c) = none := by
    rw [List.find?_eq_none]
    intro x hx hxc
    have := hs x hx
    simp at hxc; omega
  simp only [Spec.builtinEncodings, List.mem_cons, List.not_mem_nil, or_false] at he
  rcases he with rfl | rfl | rfl | rfl <;> simp only [Spec.stdChar, Spec.macChar, Spec.winChar, Spec.pdfChar, Spec.docChar, h1] <;>
    (repeat rw [if_neg (by omega)]) <;> rfl

/-- The tables of `EncodingDB` are complete and right, whatever else the glyph list contains. -/
theorem builtin_tables {glyphs : PyStr → Option PyStr} (hG : Spec.AdobeLatin glyphs) : ∃ h0, EncHeap.initial glyphs = .ok h0 ∧
    ∀ e ∈ Spec.builtinEncodings, ∀ c : Int, dictGet (h0.getD (encodingAddr (Spec.ascii e.1)) []) c =
      if 0 ≤ c then (e.2 c.toNat).map (fun ch => [ch.toNat]) else none := by
  rw [initial_latin hG]
  have h := tables_right
  cases hi : EncHeap.initial latinGlyphs with
  | error e => rw [hi] at h; cases h
  | ok h0 =>
    rw [hi] at h
    refine ⟨h0, rfl, fun e he c => ?_⟩
    have h1 := List.all_eq_true.1 h e he
    rw [Bool.and_eq_true] at h1
    have hname : encodingAddr.asciiName e.1 = Spec.ascii e.1 := rfl
    rw [hname] at h1
    generalize h0.getD (encodingAddr (Spec.ascii e.1)) [] = t at *
    have out : ∀ c : Int, ¬ (0 ≤ c ∧ c < 256) → dictGet t c = none := by
      intro c hc
      cases hd : dictGet t c with
      | none => rfl
      | some v =>
        have := List.all_eq_true.1 h1.2 _ (dictGet_some_mem hd)
        simp at this
        exact absurd this hc
    by_cases h0c : 0 ≤ c
    · rw [if_pos h0c]
      obtain ⟨n, rfl⟩ := Int.eq_ofNat_of_zero_le h0c
      by_cases hn : n < 256
      · have := List.all_eq_true.1 h1.1 n (List.mem_range.2 hn)
        simpa using this
      · rw [out _ (by omega)]
        have := spec_high he (c := n) (by omega)
        simp [this]
    · rw [if_neg h0c]; exact out c (by omega)

/-- C79. The four built-in encodings are those of the PDF standard: `get_encoding(name)` gives exactly the characters of the table for
the codes that have one, at every point of a history of calls. Other names mean StandardEncoding. -/
theorem builtin_encodings {glyphs : PyStr → Option PyStr} (hG : Spec.AdobeLatin glyphs) :
    ∃ h0, EncHeap.initial glyphs = .ok h0 ∧ ∀ before after : List (Bytes × List Obj), ∀ name : Bytes, ∃ a,
      (getEncoding glyphs (encCalls glyphs h0 before) name []).1 = .ok a ∧
      ∀ e ∈ Spec.builtinEncodings, (name = Spec.ascii e.1 ∨ (e.1 = "StandardEncoding" ∧ ∀ e' ∈ Spec.builtinEncodings, name ≠ Spec.ascii e'.1)) →
        ∀ c : Int, dictGet ((encCalls glyphs (getEncoding glyphs (encCalls glyphs h0 before) name []).2 after).getD a []) c =
          if 0 ≤ c then (e.2 c.toNat).map (fun ch => [ch.toNat]) else none := by
  obtain ⟨h0, h0ok, ht⟩ := builtin_tables hG
  refine ⟨h0, h0ok, fun before after name => ⟨encodingAddr name, by simp [getEncoding], fun e he hname c => ?_⟩⟩
  have key := (encoding_differences_partial h0ok before after name []).1 (encodingAddr name) (encodingAddr_lt name)
  rw [key]
  rcases hname with rfl | ⟨h1, h2⟩
  · exact ht e he c
  · have haddr : encodingAddr name = encodingAddr (Spec.ascii e.1) := by
      have n1 := h2 _ (by simp [Spec.builtinEncodings] : ("StandardEncoding", Spec.stdChar) ∈ Spec.builtinEncodings)
      have n2 := h2 _ (by simp [Spec.builtinEncodings] : ("MacRomanEncoding", Spec.macChar) ∈ Spec.builtinEncodings)
      have n3 := h2 _ (by simp [Spec.builtinEncodings] : ("WinAnsiEncoding", Spec.winChar) ∈ Spec.builtinEncodings)
      have n4 := h2 _ (by simp [Spec.builtinEncodings] : ("PDFDocEncoding", Spec.pdfChar) ∈ Spec.builtinEncodings)
      rw [h1]
      have : encodingAddr (Spec.ascii "StandardEncoding") = 0 := by decide +kernel
      rw [this]
      unfold encodingAddr
      rw [if_neg (by exact n1), if_neg (by exact n2), if_neg (by exact n3), if_neg (by exact n4)]
    rw [haddr]
    exact ht e he c

/-- There is such a glyph list. -/
theorem adobeLatin_example : Spec.AdobeLatin latinGlyphs := by
  have h : Spec.adobeLatin.all (fun e => latinGlyphs e.1 == some [e.2]) = true := by decide +kernel
  intro e he
  simpa using List.all_eq_true.1 h e he

end Pdf

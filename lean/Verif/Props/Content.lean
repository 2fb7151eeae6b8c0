import Verif.Proofs.ContentTerm
import Verif.Model.ObjEq
/-! C60, C61: inline images, several content streams. `contentObjects b fuel streams n` is what the first `n` calls of
`nextobject` of a content parser on `streams` return, and the exception that ended them; `fuel` bounds the rounds of one call. -/

namespace Pdf
open Spec

/-- C61. How a content is cut into streams does not matter, wherever it is cut (inside a token, too), as long as no stream but
the last one ends with `I` or `ID`. -/
theorem streams_cut (b b' : Nat) (hb : 0 < b) (hb' : 0 < b') (streams streams' : List Bytes) (h1 : streams ≠ []) (h2 : streams' ≠ [])
    (hc : Uncut streams) (hc' : Uncut streams') (he : streams.flatten = streams'.flatten) (fuel n : Nat) :
    contentObjects b fuel streams n = contentObjects b' fuel streams' n := by
  cases streams with
  | nil => exact absurd rfl h1
  | cons d ds =>
    cases streams' with
    | nil => exact absurd rfl h2
    | cons e es =>
      rw [contentObjects_flat hb (b' := b') hb' fuel n d ds hc, contentObjects_flat hb' (b' := b') hb' fuel n e es hc', he]

/-- C60, C61. Operands, operators and inline images are returned as they are written, however the content is cut into streams
(but not right after `ID`), and whatever is the size of the buffer. -/
theorem content_read (b : Nat) (hb : 0 < b) (streams : List Bytes) (os : List Obj) (hne : streams ≠ []) (hc : Uncut streams)
    (hw : Content streams.flatten os) :
    ∃ N, ∀ fuel, N ≤ fuel → ∀ n, contentObjects b fuel streams n = (os.take n, if os.length < n then some .psEOF else none) := by
  obtain ⟨N, hN⟩ := (content_yields hw streams.flatten [] rfl).objects
  refine ⟨N, fun fuel hf n => ?_⟩
  rw [streams_cut b b hb hb streams [streams.flatten] hne (by simp) hc (by simp [Uncut]) (by simp), contentObjects_eq hb]
  exact hN fuel hf n

theorem endsWhite_tail {e a : Bytes} (h : EndsWhite (e ++ a)) : EndsWhite a := by
  intro c hc
  refine h c ?_
  rw [List.getLast?_append, hc]
  rfl

theorem text_extend {p ts a b} (h : Text p ts a b) (c : Bytes) (hb : b ≠ [] ∨ EndsWhite a) : Text p ts a (b ++ c) := by
  induction h with
  | nil => exact .nil
  | white hc _ ih => exact .white hc (ih (hb.imp id fun h => endsWhite_tail (e := [_]) h))
  | comment h1 h2 _ ih =>
    rename_i p ts body x a b _
    exact .comment h1 h2 (ih (hb.imp id fun h => endsWhite_tail (e := 37 :: body ++ [x]) (by simpa using h)))
  | tok hs hk _ ih =>
    rename_i p t k ts e a b _
    refine .tok hs ?_ (ih (hb.imp id endsWhite_tail))
    rw [← List.append_assoc]
    generalize hab : a ++ b = ab at hk ⊢
    cases ab with
    | cons x xs =>
      cases k with
      | anything => trivial
      | notGreater => exact hk
      | notDigitOrDot => obtain ⟨y, r, h1, h2⟩ := hk; cases h1; exact ⟨x, xs ++ c, rfl, h2⟩
      | delimiter => obtain ⟨y, r, h1, h2⟩ := hk; cases h1; exact ⟨x, xs ++ c, rfl, h2⟩
    | nil =>
      obtain ⟨rfl, rfl⟩ := List.append_eq_nil_iff.mp hab
      cases k with
      | anything => trivial
      | delimiter => obtain ⟨_, _, h, _⟩ := hk; cases h
      | notDigitOrDot => obtain ⟨_, _, h, _⟩ := hk; cases h
      | notGreater =>
        rcases hb with hb | hb
        · exact absurd rfl hb
        · cases hs with
          | hexStr => exact absurd (hb 62 (by rw [List.append_nil, List.getLast?_append]; rfl)) (by decide)

/-- Written contents one after another are written content, if they end with white space. -/
theorem content_append {a a' : Bytes} {os os' : List Obj} (h : Content a os) (ha : EndsWhite a) (h' : Content a' os') : Content (a ++ a') (os ++ os') := by
  induction h with
  | nil => exact h'
  | objects h1 h2 _ ih =>
    rename_i p pts x b os os' _
    rw [List.append_assoc, List.append_assoc]
    refine .objects (text_extend h1 a' ?_) h2 (ih (endsWhite_tail ha))
    cases b with
    | nil => right; simpa using ha
    | cons y ys => left; simp
  | image h1 h2 h3 h4 h5 h6 h7 h8 h9 _ ih =>
    rename_i p pts x w raw data w' b ts os ps d os' _
    have h := Content.image (b := b ++ a') (by simpa using text_extend h1 a' (Or.inl (by simp))) h2 h3 h4 h5 h6 h7 h8 h9
      (ih (endsWhite_tail (e := x ++ ([73, 68, w] ++ raw ++ [69, 73, w'])) (by simpa using ha)))
    simpa using h

theorem uncut_of_white {streams : List Bytes} (h : ∀ s ∈ streams, EndsWhite s) : Uncut streams := by
  intro s hs
  have hw := h s (List.dropLast_subset _ hs)
  constructor
  · rintro ⟨x, rfl⟩; exact absurd (hw 73 (by simp)) (by decide)
  · rintro ⟨x, rfl⟩; exact absurd (hw 68 (by simp)) (by decide)

/-- C61. Streams that end with white space are read one after another: the objects of each stream, in order. -/
theorem streams_separated (b : Nat) (hb : 0 < b) (pieces : List (Bytes × List Obj)) (hne : pieces ≠ [])
    (hw : ∀ x ∈ pieces, Content x.1 x.2 ∧ EndsWhite x.1) :
    ∃ N, ∀ fuel, N ≤ fuel → ∀ n, contentObjects b fuel (pieces.map Prod.fst) n =
      ((pieces.map Prod.snd).flatten.take n, if (pieces.map Prod.snd).flatten.length < n then some .psEOF else none) := by
  refine content_read b hb _ _ (by simpa using hne) (uncut_of_white ?_) ?_
  · intro s hs
    obtain ⟨x, hx, rfl⟩ := List.mem_map.mp hs
    exact (hw x hx).2
  · clear hne
    induction pieces with
    | nil => exact .nil
    | cons x xs ih =>
      obtain ⟨h1, h2⟩ := hw x List.mem_cons_self
      exact content_append h1 h2 (ih fun y hy => hw y (List.mem_cons_of_mem _ hy))

/-- C82. Reading content ends, whatever the bytes are: there are finitely many objects, then an exception (`PSEOF` at the end of
the content), and it is not that a bound on the rounds was reached. -/
theorem content_terminates (b : Nat) (hb : 0 < b) (streams : List Bytes) :
    ∃ (os : List Obj) (e : PyErr) (N : Nat), e ≠ .recursion ∧
      ∀ fuel, N ≤ fuel → ∀ n, contentObjects b fuel streams (n + 1) = (os.take (n + 1), if os.length < n + 1 then some e else none) := by
  cases streams with
  | nil => exact ⟨[], .psEOF, 0, by decide, fun _ _ n => by simp [contentObjects, CSt.seek, CSt.fillfp]⟩
  | cons d rest =>
    obtain ⟨os, e, h1, h2⟩ := yields_total _ (lexNext (d :: rest) {}) {} (good_lexNext (d :: rest) {})
    obtain ⟨N, hN⟩ := h2.objects
    refine ⟨os, e, N, h1, fun fuel hf n => ?_⟩
    rw [contentObjects_eq hb]
    exact hN fuel hf (n + 1)

/-- `1 0 m` -/
theorem sample_moveto : Content [49, 32, 48, 32, 109, 10] [.int 1, .int 0, .kw [109]] := by
  have d : ∀ c : UInt8, c = 48 ∨ c = 49 → Spells [c] (.int (decimal [c])) .notDigitOrDot := fun c hc =>
    Spells.int (s := []) .none (by simp) (by rcases hc with rfl | rfl <;> decide)
  have h : Text 0 [(0, .int 1), (2, .int 0), (4, .kw [109])] [49, 32, 48, 32, 109, 10] [] :=
    .tok (e := [49]) (d 49 (Or.inr rfl)) ⟨32, _, rfl, by decide, by decide⟩ <| .white (by decide) <|
    .tok (e := [48]) (d 48 (Or.inl rfl)) ⟨32, _, rfl, by decide, by decide⟩ <| .white (by decide) <|
    .tok (e := [109]) (.keyword (Or.inr (by decide)) (by decide) (by decide) (by decide)) ⟨10, _, rfl, by decide, by decide⟩ <| .white (by decide) .nil
  have w : WritesSeq contentDialect [.int 1, .int 0, .kw [109]] [.int 1, .int 0, .kw [109]] :=
    .cons (.int 1) (.cons (.int 0) (.cons (.kw [109] (by simp [contentDialect, brackets])) .nil))
  exact .objects h w .nil

/-- `BI /W 1 ID xyz⏎EI ` followed by `1 0 m`: the image and the operator. -/
theorem sample_image : Content ([66, 73, 32, 47, 87, 32, 49, 32] ++ ([73, 68, 32] ++ [120, 121, 122, 10] ++ [69, 73, 32] ++ [49, 32, 48, 32, 109, 10]))
    [.stream [(.name [87], .int 1)] [120, 121, 122], .kw [69, 73], .int 1, .int 0, .kw [109]] := by
  have h : Text 0 [(0, .kw [66, 73]), (3, .lit [87]), (6, .int 1)] [66, 73, 32, 47, 87, 32, 49, 32]
      ([73, 68, 32] ++ [120, 121, 122, 10] ++ [69, 73, 32] ++ [49, 32, 48, 32, 109, 10]) :=
    .tok (e := [66, 73]) (.keyword (Or.inl (by decide)) (by decide) (by decide) (by decide)) ⟨32, _, rfl, by decide, by decide⟩ <| .white (by decide) <|
    .tok (e := [47, 87]) (.name (.plain (by decide) .nil)) ⟨32, _, rfl, by decide, by decide⟩ <| .white (by decide) <|
    .tok (e := [49]) (Spells.int (s := []) .none (by simp) (by decide)) ⟨32, _, rfl, by decide, by decide⟩ <| .white (by decide) .nil
  refine .image (raw := [120, 121, 122, 10]) (ts := [.lit [87], .int 1]) (ps := [(.name [87], .int 1)]) h rfl
    (.cons (.name _) (.cons (.int 1) .nil)) (.cons rfl .nil) ⟨by simp [firsts], by simp [lastValue]⟩ (by decide) (.lf [120, 121, 122] (by decide) (by decide)) ?_ (by decide) sample_moveto
  intro x c y _ he
  have : (69 : UInt8) ∈ x ++ 69 :: 73 :: c :: y := by simp
  rw [← he] at this
  revert this; decide

/-- The hypotheses of `content_read` hold of it, cut in the middle of the image data. -/
example : ∃ N, ∀ fuel, N ≤ fuel → ∀ n, contentObjects 4096 fuel [[66, 73, 32, 47, 87, 32, 49, 32, 73, 68, 32, 120],
    [121, 122, 10, 69, 73, 32, 49, 32, 48, 32, 109, 10]] n =
    ([Obj.stream [(.name [87], .int 1)] [120, 121, 122], .kw [69, 73], .int 1, .int 0, .kw [109]].take n, if 5 < n then some .psEOF else none) :=
  content_read 4096 (by decide) _ _ (by simp) (by simp only [Uncut]; decide) sample_image

/-- The streams are not separated: `1`, `2 m ` is read as `12 m`. -/
theorem streams_merge_counterexample :
    contentObjects 4096 9 [[49], [50, 32, 109, 32]] 9 = ([.int 12, .kw [109]], some .psEOF) ∧
    contentObjects 4096 9 [[49, 32], [50, 32, 109, 32]] 9 = ([.int 1, .int 2, .kw [109]], some .psEOF) := by decide +kernel

/-- Cut between the tokens `ID` and its data: `BI /W 1 ID`, ` xyz⏎EI q ` loses the image and the operator after it. -/
theorem streams_id_counterexample :
    contentObjects 4096 9 [[66, 73, 32, 47, 87, 32, 49, 32, 73, 68], [32, 120, 121, 122, 10, 69, 73, 32, 113, 32]] 9 = ([], some .psEOF) ∧
    contentObjects 4096 9 [[66, 73, 32, 47, 87, 32, 49, 32, 73, 68, 32, 120, 121, 122, 10, 69, 73, 32, 113, 32]] 9 =
      ([.stream [(.name [87], .int 1)] [120, 121, 122], .kw [69, 73], .kw [113]], some .psEOF) := by decide +kernel

/-- A space before `EI` stays in the data, and line ends of the data are lost before a line feed: `xyz EI ` and `xy⏎⏎EI `. -/
theorem image_separator_counterexample :
    contentObjects 4096 9 [[66, 73, 32, 73, 68, 32, 120, 121, 122, 32, 69, 73, 32]] 9 = ([.stream [] [120, 121, 122, 32], .kw [69, 73]], some .psEOF) ∧
    contentObjects 4096 9 [[66, 73, 32, 73, 68, 32, 120, 121, 10, 10, 69, 73, 32]] 9 = ([.stream [] [120, 121], .kw [69, 73]], some .psEOF) := by
  decide +kernel

/-- An `EI` inside of a word ends the data (`xyEI q⏎EI Q `), and one after the letter `E` does not (`xyEEI q EI Q `). -/
theorem image_word_counterexample :
    contentObjects 4096 9 [[66, 73, 32, 73, 68, 32, 120, 121, 69, 73, 32, 113, 10, 69, 73, 32, 81, 32]] 9 =
      ([.stream [] [120, 121], .kw [69, 73], .kw [113], .kw [69, 73], .kw [81]], some .psEOF) ∧
    contentObjects 4096 9 [[66, 73, 32, 73, 68, 32, 120, 121, 69, 69, 73, 32, 113, 32, 69, 73, 32, 81, 32]] 9 =
      ([.stream [] [120, 121, 69, 69, 73, 32, 113, 32], .kw [69, 73], .kw [81]], some .psEOF) := by
  decide +kernel

/-- An image at the end of the content, without white space after `EI`, is lost: `BI ID xyz⏎EI`. -/
theorem image_end_counterexample :
    contentObjects 4096 9 [[66, 73, 32, 73, 68, 32, 120, 121, 122, 10, 69, 73]] 9 = ([], some .psEOF) := by decide +kernel

/-- With an odd number of operands the data is read as content: `BI /W ID xyz⏎EI `. -/
theorem image_odd_counterexample :
    contentObjects 4096 9 [[66, 73, 32, 47, 87, 32, 73, 68, 32, 120, 121, 122, 10, 69, 73, 32]] 9 = ([.kw [120, 121, 122], .kw [69, 73]], some .psEOF) := by
  decide +kernel

end Pdf

import Verif.Props.TextFile
import Verif.Props.CMap
import Verif.Props.Filters
import Mathlib.Tactic.IntervalCases
import Verif.Spec.UniFile
import Mathlib.Data.List.Dedup
/-! C95: text in any characters that is written to a file with a composite font is extracted from it. -/

namespace Pdf
open Spec

/-! ### The character map -/

theorem hexOf_digit : ∀ n < 16, HexDigit n (hexOf n) ∧ hexOf n ≠ 116 := by
  intro n hn
  interval_cases n <;> exact ⟨by unfold HexDigit; decide, by decide⟩

theorem hexText_enc (data : Bytes) : HexEnc data (hexText data) := by
  induction data with
  | nil => exact .nil
  | cons b data ih =>
    have := b.toNat_lt
    exact .pair b _ _ (hexOf_digit _ (by omega)).1 (hexOf_digit _ (by omega)).1 ih

theorem uniBody_notT (alphabet : List (List Char)) : 116 ∉ uniBody alphabet := by
  intro h
  rcases List.mem_append.1 h with h | h
  · obtain ⟨b, _, hb⟩ := List.mem_flatMap.1 h
    have := b.toNat_lt
    simp only [List.mem_cons, List.not_mem_nil, or_false] at hb
    rcases hb with hb | hb
    · exact (hexOf_digit (b.toNat / 16) (by omega)).2 hb.symm
    · exact (hexOf_digit (b.toNat % 16) (by omega)).2 hb.symm
  · exact absurd h (by decide)

/-- The filter is undone. -/
theorem uni_decoded (R : Resolver) (hR : R.Direct) (inflate) (alphabet : List (List Char)) :
    decodeStream R inflate none (uniAttrs alphabet) (uniBody alphabet) = .ok (printToks (uniToks alphabet)) := by
  refine stream_data_partial R (fun n => hR _ (by simp)) (fun p c => inflate c = some p) inflate (fun _ _ h => h) _ [(.asciiHex, [])] ?_ _ _ _
    (.cons ⟨_, [62], hexText_enc _, by decide, rfl⟩ (.inl ⟨.inl ⟨rfl, rfl⟩, rfl⟩) .nil) none rfl
  refine ⟨rfl, some (.name (asc "ASCIIHexDecode")), none, .inr ⟨rfl, by simp, rfl⟩, .inl ⟨rfl, rfl⟩, .inr
    ⟨[.name (asc "ASCIIHexDecode")], .cons ⟨"ASCIIHexDecode", by decide, rfl⟩ .nil, .inr ⟨_, rfl, rfl⟩, .inl ⟨rfl, by simp⟩⟩⟩

theorem uniToks_printable (alphabet : List (List Char)) : ∀ t ∈ uniToks alphabet, Printable t := by
  intro t ht
  have p1 : Printable (.kw (asc "begincmap")) := Or.inr ⟨_, _, rfl, by decide, by decide, by decide, by decide⟩
  have p2 : Printable (.kw (asc "def")) := Or.inr ⟨_, _, rfl, by decide, by decide, by decide, by decide⟩
  have p3 : Printable (.kw (asc "begincodespacerange")) := Or.inr ⟨_, _, rfl, by decide, by decide, by decide, by decide⟩
  have p4 : Printable (.kw (asc "endcodespacerange")) := Or.inr ⟨_, _, rfl, by decide, by decide, by decide, by decide⟩
  have p5 : Printable (.kw (asc "beginbfchar")) := Or.inr ⟨_, _, rfl, by decide, by decide, by decide, by decide⟩
  have p6 : Printable (.kw (asc "endbfchar")) := Or.inr ⟨_, _, rfl, by decide, by decide, by decide, by decide⟩
  have p7 : Printable (.kw (asc "endcmap")) := Or.inr ⟨_, _, rfl, by decide, by decide, by decide, by decide⟩
  rcases List.mem_append.1 ht with ht | ht
  · simp only [List.mem_cons, List.not_mem_nil, or_false] at ht
    rcases ht with rfl | rfl | rfl | rfl | rfl | rfl | rfl | rfl | rfl
    · exact p1
    · trivial
    · trivial
    · exact p2
    · trivial
    · exact p3
    · trivial
    · trivial
    · exact p4
  rcases List.mem_append.1 ht with ht | ht
  · obtain ⟨s, _, hs⟩ := List.mem_flatMap.1 ht
    simp only [List.mem_cons, List.not_mem_nil, or_false] at hs
    rcases hs with rfl | rfl | rfl | rfl | rfl
    · trivial
    · exact p5
    · trivial
    · trivial
    · exact p6
  · rw [List.mem_singleton] at ht
    subst ht
    exact p7

theorem uni_cmapText (alphabet : List (List Char)) : CMapText (uniToks alphabet) (uniEntries alphabet) := by
  refine .other (w := "begincmap") (by simp) ?_
  refine .definition (kt := [.lit (asc "CMapType")]) (vt := [.int 2]) (.name _) (by simp [keyOf]) (.int 2) ?_
  refine .thing (t := [.int 1]) (.int 1) ?_
  refine .other (w := "begincodespacerange") (by simp) (.thing (t := [.str _]) (.str _) (.thing (t := [.str _]) (.str _) (.other (w := "endcodespacerange") (by simp) ?_)))
  unfold uniEntries
  generalize alphabet.zipIdx = l
  induction l with
  | nil => exact .final (by simp)
  | cons x l ih =>
    rw [List.flatMap_cons]
    exact .thing (t := [.int 1]) (.int 1) (.bfchar (mid := [.str _, .str _]) (.cons .nil) ih)

theorem be16_value {n : Nat} (h : n < 65536) : beValue (be16 n) = n := by
  simp only [be16, beValue]
  have h1 : (UInt8.ofNat (n / 256)).toNat = n / 256 := by simp; omega
  have h2 : (UInt8.ofNat (n % 256)).toNat = n % 256 := by simp
  simp [h1, h2]
  omega

theorem uni_sane (alphabet : List (List Char)) : ∀ e ∈ uniEntries alphabet, e.Sane := by
  intro e he
  obtain ⟨x, _, rfl⟩ := List.mem_map.1 he
  exact ⟨by simp [be16], by simp [be16]⟩

theorem uni_textOfCode (alphabet : List (List Char)) (hl : alphabet.length ≤ 65536) (c : Nat) (hc : c < alphabet.length) :
    TextOfCode (uniEntries alphabet) c (some (utf16 (alphabet.getD c []))) := by
  have h : ∀ (l : List (List Char)) (k : Nat), l.length + k ≤ 65536 → ∀ c, k ≤ c → c < k + l.length →
      TextOfCode ((l.zipIdx k).map fun x => BfEntry.char (be16 x.2) (utf16 x.1)) c (some (utf16 (l.getD (c - k) []))) := by
    intro l k hlk c h1 h2
    have hsplit : l = l.take (c - k) ++ l.getD (c - k) [] :: l.drop (c - k + 1) := by
      have h3 : c - k < l.length := by omega
      rw [List.getD_eq_getElem _ _ h3, List.getElem_cons_drop, List.take_append_drop]
    have hlt : (l.take (c - k)).length = c - k := by rw [List.length_take]; omega
    refine .given (before := ((l.take (c - k)).zipIdx k).map fun x => BfEntry.char (be16 x.2) (utf16 x.1)) (e := .char (be16 c) (utf16 (l.getD (c - k) [])))
      (after := ((l.drop (c - k + 1)).zipIdx (c + 1)).map fun x => BfEntry.char (be16 x.2) (utf16 x.1)) ?_ ⟨(be16_value (by omega)).symm, rfl⟩ ?_
    · conv_lhs => rw [hsplit, List.zipIdx_append, List.map_append, List.zipIdx_cons, List.map_cons, hlt, show k + (c - k) = c by omega]
    · intro e he t
      obtain ⟨x, hx, rfl⟩ := List.mem_map.1 he
      rintro ⟨h3, _⟩
      have h4 := List.mem_zipIdx hx
      rw [List.length_drop] at h4
      rw [be16_value (by omega)] at h3
      omega
  have := h alphabet 0 hl c (by omega) (by omega)
  exact this

/-! ### The font -/

/-- What is known of the font. -/
structure UniFontOf (alphabet : List (List Char)) (f : Font) : Prop where
  decode : ∀ codes : List Nat, (∀ c ∈ codes, c < 65536) → f.decode (uniString codes) = .ok (codes.map Int.ofNat)
  text : ∀ c : Nat, c < alphabet.length → f.toUnichr c = .ok ((alphabet.getD c []).map Char.toNat)
  measured : ∀ c : Int, Measured f c

theorem uni_built (S : Setup) (hb : 0 < S.bufsiz) (alphabet : List (List Char)) (hl : alphabet.length ≤ 65536) (R : Resolver) (hR : R.Direct) (k : Nat)
    (h1 : R.resolve1 (.ref ((k : Nat) : Int) 0) = .ok (.dict (uniCidFont k))) (h2 : R.resolve1 (.ref ((k + 1 : Nat) : Int) 0) = .ok (.dict uniDescriptor))
    (h3 : R.resolve1 (.ref ((k + 2 : Nat) : Int) 0) = .ok (uniMapObj alphabet)) :
    ∃ f, buildFont (S.fontEnv R) 2 (uniFont k) = .ok f ∧ UniFontOf alphabet f := by
  have hsub : composeSpec R (uniFont k) (uniCidFont k) = .ok (uniCidFont k ++ [(nm "Encoding", .name (asc "Identity-H")), (nm "ToUnicode", uniMapObj alphabet)]) := by
    unfold composeSpec
    rw [show dictGet (uniFont k) (nm "Encoding") = some (.name (asc "Identity-H")) from rfl, show dictGet (uniFont k) (nm "ToUnicode") = some (.ref ((k + 2 : Nat) : Int) 0) from rfl]
    simp only [bind, Except.bind, hR (.name (asc "Identity-H")) (by simp), h3, Except.map]
    rfl
  have hstep : buildFont (S.fontEnv R) 2 (uniFont k) = buildFont (S.fontEnv R) 1 (uniCidFont k ++ [(nm "Encoding", .name (asc "Identity-H")), (nm "ToUnicode", uniMapObj alphabet)]) :=
    (buildFont_kind (S.fontEnv R) 1 (uniFont k)).2.2.2 rfl _ _ [] _ _ rfl (hR (.arr [.ref ((k : Nat) : Int) 0]) (by simp)) h1 hsub
  rw [hstep]
  generalize hspec : uniCidFont k ++ [(nm "Encoding", Obj.name (asc "Identity-H")), (nm "ToUnicode", uniMapObj alphabet)] = spec
  have hkind : fontKind spec = .cid := by rw [← hspec]; rfl
  have htu : ToUnicodeOf (S.fontEnv R).file spec (some (uniEntries alphabet)) := by
    obtain ⟨pts, t1, t2⟩ := text_print (uniToks alphabet) (uniToks_printable alphabet) 0 []
    refine .map (d := uniAttrs alphabet) (raw := uniBody alphabet) (data := printToks (uniToks alphabet)) (pts := pts) (.given (by rw [← hspec]; rfl) (hR _ (by simp))) ?_ (by simpa using t2) (t1 ▸ uni_cmapText alphabet) (uni_sane alphabet)
    show (match decodeStream R S.inflate none (uniAttrs alphabet) (uniBody alphabet) with
      | .ok b => some b
      | .error _ => none) = _
    rw [uni_decoded R hR]
  obtain ⟨m, m1, m2⟩ := toUnicode_of hb htu
  have hcid : ∃ f, cidFont (S.fontEnv R) spec = .ok f ∧ f.decode = identityDecode ∧ ∀ c, Measured f c := by
    have g1 : (S.fontEnv R).R.dictValue (getOr spec "CIDSystemInfo" (.dict [])) = .ok [(nm "Registry", .str (asc "Adobe")), (nm "Ordering", .str (asc "Identity")), (nm "Supplement", .int 0)] := by
      rw [show getOr spec "CIDSystemInfo" (.dict []) = .dict [(nm "Registry", .str (asc "Adobe")), (nm "Ordering", .str (asc "Identity")), (nm "Supplement", .int 0)] by rw [← hspec]; rfl]
      unfold Resolver.dictValue
      rw [show (S.fontEnv R).R = R from rfl, hR _ (by simp)]
    have g2 : latin1Entry (S.fontEnv R).R [(nm "Registry", .str (asc "Adobe")), (nm "Ordering", .str (asc "Identity")), (nm "Supplement", .int 0)] "Registry" = .ok ((asc "Adobe").map UInt8.toNat) := by
      unfold latin1Entry
      rw [show getOr [(nm "Registry", Obj.str (asc "Adobe")), (nm "Ordering", .str (asc "Identity")), (nm "Supplement", .int 0)] "Registry" (.str (asc "unknown")) = .str (asc "Adobe") from rfl,
        show (S.fontEnv R).R = R from rfl, hR _ (by simp)]
    have g3 : latin1Entry (S.fontEnv R).R [(nm "Registry", .str (asc "Adobe")), (nm "Ordering", .str (asc "Identity")), (nm "Supplement", .int 0)] "Ordering" = .ok ((asc "Identity").map UInt8.toNat) := by
      unfold latin1Entry
      rw [show getOr [(nm "Registry", Obj.str (asc "Adobe")), (nm "Ordering", .str (asc "Identity")), (nm "Supplement", .int 0)] "Ordering" (.str (asc "unknown")) = .str (asc "Identity") from rfl,
        show (S.fontEnv R).R = R from rfl, hR _ (by simp)]
    have g4 : cidCmap (S.fontEnv R) (dictGet spec (nm "Encoding")) = .ok (.identity false) := by
      rw [show dictGet spec (nm "Encoding") = some (.name (asc "Identity-H")) by rw [← hspec]; rfl]
      unfold cidCmap
      dsimp only
      rw [show utf8 (asc "Identity-H") = some ((asc "Identity-H").map UInt8.toNat) by decide +kernel]
      show Except.ok (cidCmap.find _ _) = _
      unfold cidCmap.find
      rw [if_pos rfl]
    have g5 : cidDescriptor (S.fontEnv R).R spec = .ok uniDescriptor := by
      unfold cidDescriptor
      rw [show dictGet spec (nm "FontDescriptor") = some (.ref ((k + 1 : Nat) : Int) 0) by rw [← hspec]; rfl]
      dsimp only
      unfold Resolver.dictValue
      rw [show (S.fontEnv R).R = R from rfl, h2]
    have g6 : ∀ coding v, cidUnicodeMap (S.fontEnv R) spec uniDescriptor coding v = .ok m := by
      intro coding v
      unfold cidUnicodeMap
      rw [show cidTrueType (S.fontEnv R) uniDescriptor = .ok () from rfl]
      dsimp only
      rw [show dictGet spec (nm "ToUnicode") = some (uniMapObj alphabet) by rw [← hspec]; rfl]
      exact m1
    have g7 : (S.fontEnv R).R.listValue (getOr spec "W" (.arr [])) = .ok [] := by
      rw [show getOr spec "W" (.arr []) = .arr [] by rw [← hspec]; rfl]
      unfold Resolver.listValue
      rw [show (S.fontEnv R).R = R from rfl, hR _ (by simp)]
    have g8 : getOr spec "DW" (.int 1000) = .int 1000 := by rw [← hspec]; rfl
    have g9 : fontCore R uniDescriptor (some (.int 1000)) = .ok { name := .name (asc "Sample"), ascent := .int 800, descent := .int (-200), defaultWidth := .int 1000, bbox := [.int 0, .int (-200), .int 1000, .int 800] } := by
      unfold fontCore
      rw [show getOr uniDescriptor "FontName" (.name (asc "unknown")) = .name (asc "Sample") from rfl, show getOr uniDescriptor "Flags" (.int 0) = .int 4 from rfl,
        show getOr uniDescriptor "Ascent" (.int 0) = .int 800 from rfl, show getOr uniDescriptor "Descent" (.int 0) = .int (-200) from rfl,
        show getOr uniDescriptor "ItalicAngle" (.int 0) = .int 0 from rfl, show getOr uniDescriptor "Leading" (.int 0) = .int 0 from rfl,
        show getOr uniDescriptor "FontBBox" (.arr [.int 0, .int 0, .int 0, .int 0]) = .arr [.int 0, .int (-200), .int 1000, .int 800] from rfl]
      have hn : ∀ n, R.numValue (.int n) = .ok (.int n) := by
        intro n
        unfold Resolver.numValue
        rw [hR _ (by simp)]
        rfl
      have hi : ∀ n, R.intValue (.int n) = .ok n := by
        intro n
        unfold Resolver.intValue
        rw [hR _ (by simp)]
      have ha : R.listValue (.arr [.int 0, .int (-200), .int 1000, .int 800]) = .ok [.int 0, .int (-200), .int 1000, .int 800] := by
        unfold Resolver.listValue
        rw [hR _ (by simp)]
      simp only [bind, Except.bind, hR (.name (asc "Sample")) (by simp), hn, hi, ha]
      rfl
    have hE : (S.fontEnv R).R = R := rfl
    rw [hE] at g1 g2 g3 g5 g7
    unfold cidFont
    simp only [bind, Except.bind, hE, g1, g2, g3, g4, g5, g6, CMapObj.vertical, g7, g8, g9, Bool.false_eq_true, if_false, show getWidths [] = .ok [] from rfl]
    refine ⟨_, rfl, rfl, fun c => ⟨?_, fun h => (by cases h), fun _ => ⟨?_, ⟨_, rfl⟩⟩⟩⟩
    · dsimp only
      unfold FontCore.charWidth
      simp only [dictGet]
      cases hc : cidUnichr m c with
      | ok t => exact ⟨_, rfl⟩
      | error e =>
        dsimp only
        rw [if_pos (Or.inr (cidUnichr_error hc))]
        exact ⟨_, rfl⟩
    · dsimp only
      unfold FontCore.height
      dsimp only
      rw [show bboxDiff [.int 0, .int (-200), .int 1000, .int 800] 3 1 = .ok 1000 by decide +kernel]
      simp only [bind, Except.bind]
      rw [if_neg (by norm_num)]
      exact ⟨_, rfl⟩
  obtain ⟨f, f1, f2, f3⟩ := hcid
  have hbf : buildFont (S.fontEnv R) 1 spec = .ok f := by rw [(buildFont_kind (S.fontEnv R) 0 spec).2.2.1 hkind, f1]
  refine ⟨f, hbf, ?_, ?_, f3⟩
  · intro codes hc
    rw [f2, uniString, identity_decode codes hc]
  · intro c hc
    exact cid_font_text hb hbf hkind (info := [(nm "Registry", .str (asc "Adobe")), (nm "Ordering", .str (asc "Identity")), (nm "Supplement", .int 0)])
      (.given (by rw [← hspec]; rfl) (hR _ (by simp))) (.given rfl (hR _ (by simp))) (.given rfl (hR _ (by simp))) htu (r := some _) rfl
      (.unicode rfl (uni_textOfCode alphabet hl c hc))

/-! ### The file -/

theorem pageObjs_count (k : Nat) (pages : List (List Bytes)) : (pageObjs k pages).length = 2 * pages.length := by
  induction pages generalizing k with
  | nil => rfl
  | cons p ps ih => simp only [pageObjs, List.length_cons, ih]; omega

theorem uniObjs_get (alphabet : List (List Char)) (pages : List (List (List Nat))) :
    TextTable (numbered 1 (uniObjs alphabet pages)) (uniFont (2 * pages.length + 4)) (pages.map fun lines => lines.map uniString) ∧
    dictGet (numbered 1 (uniObjs alphabet pages)) ((2 * pages.length + 4 : Nat) : Int) = some (.dict (uniCidFont (2 * pages.length + 4))) ∧
    dictGet (numbered 1 (uniObjs alphabet pages)) ((2 * pages.length + 4 + 1 : Nat) : Int) = some (.dict uniDescriptor) ∧
    dictGet (numbered 1 (uniObjs alphabet pages)) ((2 * pages.length + 4 + 2 : Nat) : Int) = some (uniMapObj alphabet) := by
  have hlen : (textObjs (uniFont (2 * pages.length + 4)) (pages.map fun lines => lines.map uniString)).length = 2 * pages.length + 3 := by
    simp only [textObjs, List.length_cons, pageObjs_count, List.length_map]
  have hget : ∀ i, dictGet (numbered 1 (uniObjs alphabet pages)) ((1 + i : Nat) : Int) = (uniObjs alphabet pages)[i]? := fun i => numbered_get 1 _ i
  have hold : ∀ i o, dictGet (numbered 1 (textObjs (uniFont (2 * pages.length + 4)) (pages.map fun lines => lines.map uniString))) ((1 + i : Nat) : Int) = some o →
      dictGet (numbered 1 (uniObjs alphabet pages)) ((1 + i : Nat) : Int) = some o := by
    intro i o h
    rw [numbered_get] at h
    rw [hget, uniObjs, List.getElem?_append_left (List.getElem?_eq_some_iff.1 h).1, h]
  obtain ⟨g1, g2, g3, g4⟩ := textObjs_get (uniFont (2 * pages.length + 4)) (pages.map fun lines => lines.map uniString)
  refine ⟨⟨hold 0 _ g1, hold 1 _ g2, hold 2 _ g3, fun k lines h => ?_⟩, ?_, ?_, ?_⟩
  · obtain ⟨h1, h2⟩ := g4 k lines h
    rw [show 2 * k + 4 = 1 + (2 * k + 3) by omega] at h1 ⊢
    rw [show 2 * k + 5 = 1 + (2 * k + 4) by omega] at h2 ⊢
    exact ⟨hold _ _ h1, hold _ _ h2⟩
  · rw [show 2 * pages.length + 4 = 1 + (2 * pages.length + 3) by omega, hget, uniObjs, List.getElem?_append_right (by rw [hlen]), hlen, Nat.sub_self]
    rw [show 1 + (2 * pages.length + 3) = 2 * pages.length + 4 by omega]
    rfl
  · rw [show 2 * pages.length + 4 + 1 = 1 + (2 * pages.length + 3 + 1) by omega, hget, uniObjs, List.getElem?_append_right (by rw [hlen]; omega), hlen, Nat.add_sub_cancel_left]
    rfl
  · rw [show 2 * pages.length + 4 + 2 = 1 + (2 * pages.length + 3 + 2) by omega, hget, uniObjs, List.getElem?_append_right (by rw [hlen]; omega), hlen, Nat.add_sub_cancel_left]
    rfl

theorem uniObjs_writable (alphabet : List (List Char)) (pages : List (List (List Nat))) : ∀ o ∈ uniObjs alphabet pages, Writable o := by
  intro o h
  rcases List.mem_append.1 h with h | h
  · refine writable_text _ ?_ _ o h
    refine ⟨?_, ⟨_, rfl⟩, trivial, ⟨_, rfl⟩, trivial, ⟨_, rfl⟩, trivial, ⟨_, rfl⟩, trivial, ⟨_, rfl⟩, ⟨trivial, trivial⟩, ⟨_, rfl⟩, trivial, trivial⟩
    show [nm "Type", nm "Subtype", nm "BaseFont", nm "Encoding", nm "DescendantFonts", nm "ToUnicode"].Nodup
    decide
  simp only [List.mem_cons, List.not_mem_nil, or_false] at h
  rcases h with rfl | rfl | rfl
  · refine ⟨?_, ⟨_, rfl⟩, trivial, ⟨_, rfl⟩, trivial, ⟨_, rfl⟩, trivial, ⟨_, rfl⟩, ⟨by decide, ⟨_, rfl⟩, trivial, ⟨_, rfl⟩, trivial, ⟨_, rfl⟩, trivial, trivial⟩, ⟨_, rfl⟩, trivial, trivial⟩
    show [nm "Type", nm "Subtype", nm "BaseFont", nm "CIDSystemInfo", nm "FontDescriptor"].Nodup
    decide
  · refine ⟨?_, ⟨_, rfl⟩, trivial, ⟨_, rfl⟩, trivial, ⟨_, rfl⟩, trivial, ⟨_, rfl⟩, ⟨trivial, trivial, trivial, trivial, trivial⟩, ⟨_, rfl⟩, trivial, ⟨_, rfl⟩, trivial, ⟨_, rfl⟩, trivial, trivial⟩
    show [nm "Type", nm "FontName", nm "Flags", nm "FontBBox", nm "ItalicAngle", nm "Ascent", nm "Descent"].Nodup
    decide
  · refine ⟨⟨(show [nm "Length", nm "Filter"].Nodup by decide), ⟨_, rfl⟩, trivial, ⟨_, rfl⟩, trivial, trivial⟩, ?_, fun hi => uniBody_notT alphabet (hi.subset (by decide))⟩
    rw [show dictGet (uniAttrs alphabet) (.name (asc "Type")) = none from rfl]
    simp

theorem uni_placed {alphabet : List (List Char)} (hl : alphabet.length ≤ 65536) {f : Font} (hf : UniFontOf alphabet f) (ig : Bool) (codes : List Nat)
    (hc : ∀ c ∈ codes, c < alphabet.length) : PlacedText f ig (uniString codes) (codesText alphabet codes) := by
  refine ⟨codes.map Int.ofNat, codes.map fun c => (alphabet.getD c []).map Char.toNat, hf.decode codes fun c h => by have := hc c h; omega, ?_, ?_, fun c _ => hf.measured c⟩
  · rw [List.forall₂_map_left_iff, List.forall₂_map_right_iff, List.forall₂_same]
    exact fun c h => .known (hf.text c (hc c h))
  · rw [codesText, List.flatMap_def]

/-- The lines in the font of the document. -/
theorem unicode_lines (S : Setup) (hb : 0 < S.bufsiz) (ig : Bool) (alphabet : List (List Char)) (hl : alphabet.length ≤ 65536) (pages : List (List (List Nat)))
    (hp : ∀ lines ∈ pages, ∀ line ∈ lines, line ≠ [] ∧ ∀ c ∈ line, c < alphabet.length) :
    TextTable (numbered 1 (uniObjs alphabet pages)) (uniFont (2 * pages.length + 4)) (pages.map fun lines => lines.map uniString) ∧
    ∃ k f, buildFont (S.fontEnv (fileResolver (numbered 1 (uniObjs alphabet pages)))) k (uniFont (2 * pages.length + 4)) = .ok f ∧
      List.Forall₂ (fun lines t => ∃ ts, List.Forall₂ (PlacedText f ig) lines ts ∧ (∀ s ∈ lines, HasCharacter f [.str s]) ∧ t = ts.flatten)
        (pages.map fun lines => lines.map uniString) (pages.map fun lines => codesText alphabet lines.flatten) := by
  obtain ⟨g1, g2, g3, g4⟩ := uniObjs_get alphabet pages
  refine ⟨g1, ?_⟩
  have hz : ∀ i g, i ≠ 0 → (fileResolver (numbered 1 (uniObjs alphabet pages))).resolve1 (.ref i g) = .ok ((dictGet (numbered 1 (uniObjs alphabet pages)) i).getD .null) := fun i g hi => if_neg hi
  obtain ⟨f, f1, f2⟩ := uni_built S hb alphabet hl (fileResolver (numbered 1 (uniObjs alphabet pages))) (fileResolver_direct _) (2 * pages.length + 4)
    (by rw [hz _ _ (by omega), g2]; rfl) (by rw [hz _ _ (by omega), g3]; rfl) (by rw [hz _ _ (by omega), g4]; rfl)
  refine ⟨2, f, f1, ?_⟩
  rw [List.forall₂_map_left_iff, List.forall₂_map_right_iff, List.forall₂_same]
  intro lines hlines
  refine ⟨lines.map (codesText alphabet), ?_, ?_, ?_⟩
  · rw [List.forall₂_map_left_iff, List.forall₂_map_right_iff, List.forall₂_same]
    exact fun line h => uni_placed hl f2 ig line (hp lines hlines line h).2
  · intro s hs
    obtain ⟨line, h, rfl⟩ := List.mem_map.1 hs
    obtain ⟨h1, h2⟩ := hp lines hlines line h
    cases line with
    | nil => exact absurd rfl h1
    | cons c cs => exact ⟨_, _, _, by simp, f2.decode (c :: cs) fun x hx => by have := h2 x hx; omega⟩
  · unfold codesText
    rw [List.flatMap_def, List.map_flatten, List.flatten_flatten, List.map_map]
    rfl

/-- **C95.** A document written with lines of codes, whose texts are those of an alphabet, is a document with these texts on its pages. -/
theorem unicode_document (S : Setup) (hb : 0 < S.bufsiz) (ig : Bool) (alphabet : List (List Char)) (hl : alphabet.length ≤ 65536) (pages : List (List (List Nat)))
    (hp : ∀ lines ∈ pages, ∀ line ∈ lines, line ≠ [] ∧ ∀ c ∈ line, c < alphabet.length) :
    Document S ig (writeCodes alphabet pages) (pages.map fun lines => codesText alphabet lines.flatten) := by
  obtain ⟨g1, g2⟩ := unicode_lines S hb ig alphabet hl pages hp
  exact text_document_in S (uniObjs alphabet pages) (uniObjs_writable alphabet pages) _ ig _ _ g1 g2

/-- **C95.** ... and `convert_to_text` gives these texts: of all pages, or of the chosen ones. -/
theorem codes_text (S : Setup) (hb : 0 < S.bufsiz) (opts : Options) (alphabet : List (List Char)) (hl : alphabet.length ≤ 65536) (pages : List (List (List Nat)))
    (hp : ∀ lines ∈ pages, ∀ line ∈ lines, line ≠ [] ∧ ∀ c ∈ line, c < alphabet.length)
    (maxpages : Nat) (hmax : opts.maxpages = maxpages) (shown : List PyStr)
    (hs : shown = ((pages.map fun lines => codesText alphabet lines.flatten).zipIdx.filter fun x =>
      decide (Wanted opts.pagenos x.2 ∧ ∀ j < x.2, Wanted opts.pagenos j → maxpages = 0 ∨ j + 1 < maxpages)).map Prod.fst)
    (hne : shown ≠ []) : ∃ N, ∀ fuel ≥ N, convertText S opts fuel (writeCodes alphabet pages) = (textOf 0 shown, none) :=
  file_text S hb _ opts _ (unicode_document S hb opts.ignoreBad alphabet hl pages hp) maxpages hmax shown hs hne

theorem all_wanted (l : List PyStr) (n : Nat) :
    ((l.zipIdx n).filter fun x => decide (Wanted [] x.2 ∧ ∀ j < x.2, Wanted [] j → 0 = 0 ∨ j + 1 < 0)).map Prod.fst = l := by
  rw [List.filter_eq_self.2 (by simp [Wanted])]
  exact List.zipIdx_map_fst _ _

theorem indexed_text (chars line : List Char) (h : ∀ c ∈ line, c ∈ chars) :
    codesText (chars.map fun c => [c]) (line.map fun c => chars.idxOf c) = line.map Char.toNat := by
  induction line with
  | nil => rfl
  | cons c cs ih =>
    have hlt := List.idxOf_lt_length_of_mem (h c (by simp))
    rw [codesText, List.map_cons, List.flatMap_cons, List.map_cons, ← ih fun x hx => h x (by simp [hx])]
    rw [List.getD_eq_getElem _ _ (by simpa using hlt), List.getElem_map, List.getElem_idxOf]
    rfl

theorem unicode_pages (pages : List (List (List Char))) :
    (pages.map fun lines => lines.map fun line => line.map fun c => (charsOf pages).idxOf c).map (fun lines => codesText ((charsOf pages).map fun c => [c]) lines.flatten) =
      pages.map fun lines => lines.flatten.map Char.toNat := by
  rw [List.map_map]
  refine List.map_congr_left fun lines h1 => ?_
  rw [Function.comp_apply, ← List.map_flatten]
  refine indexed_text _ _ fun c hc => ?_
  rw [charsOf, List.mem_dedup, List.mem_flatten]
  obtain ⟨line, h2, h3⟩ := List.mem_flatten.1 hc
  exact ⟨line, List.mem_flatten.2 ⟨lines, h1, h2⟩, h3⟩

/-- **C95, any text.** `convert_to_text` of a document whose pages were written with lines of any characters, at most 65536 different ones, has the
characters of each page in order. -/
theorem unicode_text (S : Setup) (hb : 0 < S.bufsiz) (pages : List (List (List Char))) (hne : pages ≠ []) (hp : ∀ lines ∈ pages, ∀ line ∈ lines, line ≠ [])
    (hd : (charsOf pages).length ≤ 65536) :
    ∃ N, ∀ fuel ≥ N, convertText S {} fuel (writeUnicode pages) = (textOf 0 (pages.map fun lines => lines.flatten.map Char.toNat), none) := by
  have hmem : ∀ lines ∈ pages, ∀ line ∈ lines, ∀ c ∈ line, c ∈ charsOf pages := by
    intro lines h1 line h2 c h3
    rw [charsOf, List.mem_dedup, List.mem_flatten]
    exact ⟨line, List.mem_flatten.2 ⟨lines, h1, h2⟩, h3⟩
  have he := unicode_pages pages
  unfold writeUnicode
  generalize hA : ((charsOf pages).map fun c => [c]) = A at he ⊢
  generalize hP : (pages.map fun lines => lines.map fun line => line.map fun c => (charsOf pages).idxOf c) = P at he ⊢
  rw [← he]
  refine codes_text S hb {} A (by rw [← hA]; simpa using hd) P ?_ 0 rfl _ (all_wanted _ 0).symm (by rw [← hP]; simpa using hne)
  intro lines h1 line h2
  rw [← hP] at h1
  obtain ⟨lines', h3, rfl⟩ := List.mem_map.1 h1
  obtain ⟨line', h4, rfl⟩ := List.mem_map.1 h2
  refine ⟨by simpa using hp lines' h3 line' h4, fun c hc => ?_⟩
  obtain ⟨c', h5, rfl⟩ := List.mem_map.1 hc
  rw [← hA, List.length_map]
  exact List.idxOf_lt_length_of_mem (hmem _ h3 _ h4 _ h5)

/-! ### Examples -/

/-- Greek, a character beyond the first plane, and two pages. -/
example : ∃ N, ∀ fuel ≥ N, convertText sampleSetup {} fuel (writeUnicode [[['α', 'β'], ['𝄞']], [['α']]]) =
    (textOf 0 [[945, 946, 0x1d11e], [945]], none) :=
  unicode_text sampleSetup (by decide) [[['α', 'β'], ['𝄞']], [['α']]] (by simp) (by decide) (by decide +kernel)

/-- An alphabet with a ligature: one code, two characters. -/
example : ∃ N, ∀ fuel ≥ N, convertText sampleSetup {} fuel (writeCodes [['f', 'i'], ['x']] [[[0, 1]]]) = (textOf 0 [[102, 105, 120]], none) :=
  codes_text sampleSetup (by decide) {} [['f', 'i'], ['x']] (by decide) [[[0, 1]]] (by decide) 0 rfl [[102, 105, 120]] (by decide +kernel) (by decide)

end Pdf

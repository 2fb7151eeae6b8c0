import Verif.Model.Fonts
import Verif.Spec.Fonts
import Verif.Props.Type1
import Verif.Props.EncodingTables
import Verif.Props.Widths
import Verif.Props.Text
import Verif.Props.Names
/-! C47, C48, C81: the text and the width of a character code, and the cache of fonts. -/

namespace Pdf
open Spec (Entry ToUnicodeOf EncodingOf CodeText TextOf TextOfCode ascii baseText T1Text LastNamed)

/-- The file as the font sees it. -/
def FontEnv.file (E : FontEnv) : Spec.FontFile where
  R := E.R
  data d raw := match E.getData d raw with
    | .ok b => some b
    | .error _ => none

/-- `resolve1` returns an object that is not a reference as it is. -/
def Resolver.Direct (R : Resolver) : Prop := ∀ o, (∀ i g, o ≠ .ref i g) → R.resolve1 o = .ok o

theorem toUnicode_of {E : FontEnv} (hb : 0 < E.bufsiz) {spec : List (Key × Obj)} {es : Option (List Spec.BfEntry)} (h : ToUnicodeOf E.file spec es) :
    ∃ m, toUnicodeMap E spec = .ok m ∧
      ∀ (table : CodeMap) (code : Nat) (r : Option PyStr), CodeText es (dictGet table (code : Int)) code r →
        simpleUnichr m table code = match (generalizing := false) r with
          | some t => .ok t
          | none => .error .unicodeNotDefined := by
  cases h with
  | absent h =>
    cases h with
    | absent h =>
      refine ⟨none, by rw [toUnicodeMap, h], fun table code r hr => ?_⟩
      cases hr with
      | unicode h => cases h
      | other h =>
        rw [simpleUnichr]
        cases dictGet table (code : Int) <;> rfl
  | @map d raw data pts es h hd ht hc hs =>
    cases h with
    | given ho hv =>
      obtain ⟨s, h1, h2⟩ := tounicode_map E.glyphs E.bufsiz hb data pts es ht hc hs
      have hdata : E.getData d raw = .ok data := by
        revert hd; simp only [FontEnv.file]; split
        · rename_i h; intro h'; cases h'; exact h
        · intro h'; cases h'
      have hv' : E.R.resolve1 _ = .ok (.stream d raw) := hv
      refine ⟨some s.umap, ?_, fun table code r hr => ?_⟩
      · rw [toUnicodeMap, ho]
        simp only [Resolver.streamValue, hv', bind, Except.bind, hdata, h1]
      · rw [simpleUnichr]
        simp only [Option.bind_some]
        cases hr with
        | @unicode l s' hl ht =>
          cases hl
          have := h2 code _ ht
          rw [getUnichr] at this
          cases hg : dictGet s.umap (code : Int) with
          | none => rw [hg] at this; cases this
          | some t => rw [hg] at this; simp only [Except.ok.injEq] at this; rw [this, utf16be_text]
        | other h =>
          have := h2 code _ (h _ rfl)
          rw [getUnichr] at this
          cases hg : dictGet s.umap (code : Int) with
          | none => cases dictGet table (code : Int) <;> rfl
          | some t => rw [hg] at this; cases this

/-- The tables of the library are the base encodings. -/
theorem baseText_table {E : FontEnv} (hG : Spec.AdobeLatin E.glyphs) (ht : EncHeap.initial E.glyphs = .ok E.tables) (name : Bytes) (c : Int) :
    dictGet (E.tables.getD (encodingAddr name) []) c = baseText name c := by
  obtain ⟨h0, h0ok, hall⟩ := builtin_encodings hG
  rw [ht] at h0ok
  cases h0ok
  obtain ⟨a, ha, hb⟩ := hall [] [] name
  simp only [encCalls, List.foldl_nil, getEncoding, if_true] at ha hb
  cases ha
  unfold baseText
  by_cases h1 : name = ascii "StandardEncoding"
  · subst h1
    exact hb _ (by simp [Spec.builtinEncodings] : ("StandardEncoding", Spec.stdChar) ∈ Spec.builtinEncodings) (.inl rfl) c
  · by_cases h2 : name = ascii "MacRomanEncoding"
    · subst h2
      exact hb _ (by simp [Spec.builtinEncodings] : ("MacRomanEncoding", Spec.macChar) ∈ Spec.builtinEncodings) (.inl rfl) c
    · by_cases h3 : name = ascii "WinAnsiEncoding"
      · subst h3
        exact hb _ (by simp [Spec.builtinEncodings] : ("WinAnsiEncoding", Spec.winChar) ∈ Spec.builtinEncodings) (.inl rfl) c
      · by_cases h4 : name = ascii "PDFDocEncoding"
        · subst h4
          exact hb _ (by simp [Spec.builtinEncodings] : ("PDFDocEncoding", Spec.pdfChar) ∈ Spec.builtinEncodings) (.inl rfl) c
        · rw [hb _ (by simp [Spec.builtinEncodings] : ("StandardEncoding", Spec.stdChar) ∈ Spec.builtinEncodings) (.inr ⟨rfl, ?_⟩) c]
          · simp [Spec.builtinEncodings, h1, h2, h3, h4]
          · intro e he
            simp only [Spec.builtinEncodings, List.mem_cons, List.not_mem_nil, or_false] at he
            rcases he with rfl | rfl | rfl | rfl
            · exact h1
            · exact h2
            · exact h3
            · exact h4

theorem encodingTable_of {E : FontEnv} (hG : Spec.AdobeLatin E.glyphs) (ht : EncHeap.initial E.glyphs = .ok E.tables) {name : Bytes} {diff : List Obj}
    {t : CodeMap} (h : encodingTable E name diff = .ok t) (c : Int) : TextOf (glyphOf E.glyphs) (baseText name) diff c (dictGet t c) := by
  have key := (encoding_differences_partial ht [] [] name diff).2.1
  simp only [encCalls, List.foldl_nil] at key
  unfold encodingTable at h
  generalize getEncoding E.glyphs E.tables name diff = r at *
  obtain ⟨r1, h1⟩ := r
  cases r1 with
  | error e => cases h
  | ok a =>
    cases h
    have := key a rfl c
    rwa [funext (baseText_table hG ht name)] at this

theorem simpleEncoding_of {E : FontEnv} (hR : E.R.Direct) (hG : Spec.AdobeLatin E.glyphs) (ht : EncHeap.initial E.glyphs = .ok E.tables)
    {spec : List (Key × Obj)} {name : Bytes} {diff : List Obj} (he : EncodingOf E.R spec name diff) {t : CodeMap} (h : simpleEncoding E spec = .ok t)
    (c : Int) : TextOf (glyphOf E.glyphs) (baseText name) diff c (dictGet t c) := by
  cases he with
  | absent he =>
    cases he with
    | absent he => rw [simpleEncoding, he] at h; exact encodingTable_of hG ht h c
  | named he =>
    cases he with
    | given ho hv =>
      simp only [simpleEncoding, ho, hv, encodingName, bind, Except.bind] at h
      exact encodingTable_of hG ht h c
  | @dict d _ _ he hbase hdiff =>
    cases he with
    | given ho hv =>
      simp only [simpleEncoding, ho, hv, bind, Except.bind] at h
      have e1 : encodingName (getOr d "BaseEncoding" (.name (asc "StandardEncoding"))) = .ok name := by
        rcases hbase with ⟨h1, h2⟩ | h1
        · rw [getOr, h1, h2]; rfl
        · rw [getOr, h1]; rfl
      have e2 : E.R.listValue (getOr d "Differences" (.arr [])) = .ok diff := by
        rcases hdiff with ⟨h1, h2⟩ | h1
        · cases h1 with
          | absent h1 => rw [getOr, h1, h2, Resolver.listValue, Option.getD_none, hR _ (by simp)]
        · cases h1 with
          | given h1 h2 => rw [getOr, h1, Option.getD_some, Resolver.listValue, h2]
      simp only [e1, e2] at h
      exact encodingTable_of hG ht h c

open Spec (FontKind fontKind)

theorem fontKind_asc (spec : List (Key × Obj)) : fontKind spec = match dictGet spec (nm "Subtype") with
  | some (.name n) => if n = asc "Type3" then .type3 else if n = asc "CIDFontType0" ∨ n = asc "CIDFontType2" then .cid
      else if n = asc "Type0" then .composite else .type1
  | _ => .type1 := rfl

theorem buildFont_succ (E : FontEnv) (fuel : Nat) (spec : List (Key × Obj)) : buildFont E (fuel + 1) spec =
    match getOr spec "Subtype" (.name (asc "Type1")) with
    | .name n =>
      if n = asc "Type3" then type3Font E spec
      else if n = asc "CIDFontType0" ∨ n = asc "CIDFontType2" then cidFont E spec
      else if n = asc "Type0" then
        match dictGet spec (nm "DescendantFonts") with
        | none => .error .keyError
        | some o =>
          match E.R.listValue o with
          | .error e => .error e
          | .ok [] => .error .assertion
          | .ok (f :: _) => do
            let sub ← E.R.dictValue f
            let sub ← composeSpec E.R spec sub
            buildFont E fuel sub
      else type1Font E spec
    | _ => type1Font E spec := rfl

theorem buildFont_kind (E : FontEnv) (fuel : Nat) (spec : List (Key × Obj)) :
    (fontKind spec = .type1 → buildFont E (fuel + 1) spec = type1Font E spec) ∧
    (fontKind spec = .type3 → buildFont E (fuel + 1) spec = type3Font E spec) ∧
    (fontKind spec = .cid → buildFont E (fuel + 1) spec = cidFont E spec) ∧
    (fontKind spec = .composite → ∀ o f fs d sub, dictGet spec (nm "DescendantFonts") = some o → E.R.resolve1 o = .ok (.arr (f :: fs)) →
      E.R.resolve1 f = .ok (.dict d) → composeSpec E.R spec d = .ok sub → buildFont E (fuel + 1) spec = buildFont E fuel sub) := by
  rw [fontKind_asc, buildFont_succ, getOr]
  cases dictGet spec (nm "Subtype") with
  | none =>
    have h1 : asc "Type1" ≠ asc "Type3" := by decide +kernel
    have h2 : asc "Type1" ≠ asc "CIDFontType0" := by decide +kernel
    have h3 : asc "Type1" ≠ asc "CIDFontType2" := by decide +kernel
    have h4 : asc "Type1" ≠ asc "Type0" := by decide +kernel
    simp [h1, h2, h3, h4]
  | some o =>
    cases o with
    | name n =>
      simp only [Option.getD_some]
      by_cases h1 : n = asc "Type3"
      · simp [h1]
      · by_cases h2 : n = asc "CIDFontType0" ∨ n = asc "CIDFontType2"
        · simp [h1, h2]
        · by_cases h3 : n = asc "Type0"
          · rw [if_neg h1, if_neg h2, if_pos h3]
            refine ⟨by simp, by simp, by simp, fun _ o f fs d sub ho hv hd hs => ?_⟩
            rw [if_neg h1, if_neg h2, if_pos h3]
            simp only [ho, Resolver.listValue, hv, Resolver.dictValue, hd, hs, bind, Except.bind]
          · simp [h1, h2, h3]
    | _ => simp

/-- How a font of the kind Type 1 is put together. -/
theorem type1Font_parts {E : FontEnv} {spec : List (Key × Obj)} {f : Font} (h : type1Font E spec = .ok f) :
    ∃ d byCode byText table0 umap core table, type1Source E spec = .ok (d, byCode, byText) ∧ simpleEncoding E spec = .ok table0 ∧
      toUnicodeMap E spec = .ok umap ∧ fontCore E.R d none = .ok core ∧ type1Table E spec d table0 = .ok table ∧
      f = simpleFont core byCode byText umap table := by
  simp only [type1Font, bind, Except.bind] at h
  split at h
  · cases h
  · rename_i x hx
    obtain ⟨d, byCode, byText⟩ := x
    dsimp only at h
    split at h
    · cases h
    · rename_i table0 htab
      split at h
      · cases h
      · rename_i umap humap
        split at h
        · cases h
        · rename_i core hcore
          split at h
          · cases h
          · rename_i table htable
            cases h
            exact ⟨d, byCode, byText, table0, umap, core, table, hx, htab, humap, hcore, htable, rfl⟩

/-- How a font of the kind Type 3 is put together. -/
theorem type3Font_parts {E : FontEnv} {spec : List (Key × Obj)} {f : Font} (h : type3Font E spec = .ok f) :
    ∃ d byCode umap core table a b c e x y x0 y0 x1 y1 qa qb qc qe, simpleWidths E.R spec = .ok byCode ∧ type3Descriptor E.R spec = .ok d ∧
      simpleEncoding E spec = .ok table ∧ toUnicodeMap E spec = .ok umap ∧ fontCore E.R d none = .ok core ∧
      E.R.listValue (getOr spec "FontMatrix" .null) = .ok [a, b, c, e, x, y] ∧ core.bbox = [x0, y0, x1, y1] ∧
      a.num = .ok qa ∧ b.num = .ok qb ∧ c.num = .ok qc ∧ e.num = .ok qe ∧
      f = simpleFont { core with descent := y0, ascent := y1, hscale := qa + qc, vscale := qb + qe } byCode [] umap table := by
  simp only [type3Font, bind, Except.bind] at h
  split at h
  · cases h
  · rename_i byCode hw
    split at h
    · cases h
    · rename_i d hd
      split at h
      · cases h
      · rename_i table htab
        split at h
        · cases h
        · rename_i umap humap
          split at h
          · cases h
          · rename_i core hcore
            split at h
            · cases h
            · rename_i matrix hm
              split at h
              · rename_i x0 y0 x1 y1 hb
                split at h
                · rename_i a b c e x y
                  split at h
                  · cases h
                  · rename_i qa ha
                    split at h
                    · cases h
                    · rename_i qc hc
                      split at h
                      · cases h
                      · rename_i qb hbq
                        split at h
                        · cases h
                        · rename_i qe he
                          cases h
                          exact ⟨d, byCode, umap, core, table, a, b, c, e, x, y, x0, y0, x1, y1, qa, qb, qc, qe, hw, hd, htab, humap, hcore, hm, hb,
                            ha, hbq, hc, he, rfl⟩
                · cases h
              · cases h

/-- **C47, simple fonts.** The text of a code of a simple font is what the `ToUnicode` map says; if it has no entry, the character of the
encoding with its differences; else the character is undefined. -/
theorem simple_font_text {E : FontEnv} (hb : 0 < E.bufsiz) (hR : E.R.Direct) (hG : Spec.AdobeLatin E.glyphs) (ht : EncHeap.initial E.glyphs = .ok E.tables)
    {fuel : Nat} {spec : List (Key × Obj)} {f : Font} (hf : buildFont E fuel spec = .ok f)
    (hk : fontKind spec = .type3 ∨ fontKind spec = .type1 ∧ dictGet spec (nm "Encoding") ≠ none)
    {es : Option (List Spec.BfEntry)} (hu : ToUnicodeOf E.file spec es) {name : Bytes} {diff : List Obj} (he : EncodingOf E.R spec name diff)
    {code : Nat} {u r : Option PyStr} (htext : TextOf (glyphOf E.glyphs) (baseText name) diff code u) (hr : CodeText es u code r) :
    f.toUnichr code = match (generalizing := false) r with
      | some t => .ok t
      | none => .error .unicodeNotDefined := by
  obtain ⟨m, h1, h2⟩ := toUnicode_of hb hu
  cases fuel with
  | zero => cases hf
  | succ fuel =>
    have key : ∃ core byCode byText umap table, f = simpleFont core byCode byText umap table ∧ toUnicodeMap E spec = .ok umap ∧
        simpleEncoding E spec = .ok table := by
      rcases hk with hk | ⟨hk, hne⟩
      · rw [(buildFont_kind E fuel spec).2.1 hk] at hf
        obtain ⟨d, byCode, umap, core, table, a, b, c, e, x, y, x0, y0, x1, y1, qa, qb, qc, qe, _, _, p3, p4, _, _, _, _, _, _, _, p⟩ := type3Font_parts hf
        exact ⟨_, _, _, _, _, p, p4, p3⟩
      · rw [(buildFont_kind E fuel spec).1 hk] at hf
        obtain ⟨d, byCode, byText, table0, umap, core, table, _, p2, p3, _, p5, p⟩ := type1Font_parts hf
        have : table = table0 := by
          unfold type1Table at p5
          split at p5
          · rename_i h _; exact absurd h hne
          · cases p5; rfl
        subst this
        exact ⟨_, _, _, _, _, p, p3, p2⟩
    obtain ⟨core, byCode, byText, umap, table, rfl, hum, htab⟩ := key
    rw [h1] at hum
    cases hum
    have := textOf_unique (simpleEncoding_of hR hG ht he htab code) htext
    exact h2 table code r (by rw [this]; exact hr)

open Spec (Standard14 DescriptorOf ProgramOf BuiltinText)

theorem type1Source_of {E : FontEnv} (hR : E.R.Direct) (hm : E.metrics (pstr "unknown") = none) {spec d d' : List (Key × Obj)}
    {w : Option (List (PyStr × Obj))} {byCode : List (ℚ × Obj)} {byText : List (PyStr × Obj)} (h : DescriptorOf E.R E.metrics spec d w)
    (hs : type1Source E spec = .ok (d', byCode, byText)) :
    d' = d ∧ match (generalizing := false) w with
      | some w => byCode = [] ∧ byText = w
      | none => simpleWidths E.R spec = .ok byCode ∧ byText = [] := by
  have own : (∀ m, ¬ Standard14 E.metrics spec m) → E.R.dictValue (getOr spec "FontDescriptor" (.dict [])) = .ok d' ∧
      simpleWidths E.R spec = .ok byCode ∧ byText = [] := by
    intro hno
    unfold type1Source at hs
    split at hs
    · cases hs
    · rename_i key hkey
      have hnone : key.bind E.metrics = none := by
        unfold baseFontKey at hkey
        split at hkey
        · cases hkey; exact hm
        · rename_i n hn
          cases hkey
          cases hu : utf8 n with
          | none => rfl
          | some s =>
            rw [Option.bind_some]
            by_contra hc
            obtain ⟨m, hm⟩ := Option.ne_none_iff_exists'.1 hc
            exact hno m ⟨n, s, hn, hu, hm⟩
        · cases hkey
        · cases hkey
        · cases hkey; rfl
      rw [hnone] at hs
      simp only [bind, Except.bind] at hs
      split at hs
      · cases hs
      · rename_i hd
        split at hs
        · cases hs
        · rename_i hw
          cases hs
          exact ⟨hd, hw, rfl⟩
  cases h with
  | @standard d w h =>
    obtain ⟨n, s, hn, hu, hm⟩ := h
    unfold type1Source at hs
    rw [baseFontKey, hn] at hs
    simp only [hu, Option.bind_some, hm] at hs
    cases hs
    exact ⟨rfl, rfl, rfl⟩
  | own hno he =>
    obtain ⟨h1, h2⟩ := own hno
    refine ⟨?_, h2⟩
    cases he with
    | given ho hv =>
      rw [getOr, ho, Option.getD_some, Resolver.dictValue, hv] at h1
      cases h1; rfl
  | missing hno he =>
    obtain ⟨h1, h2⟩ := own hno
    refine ⟨?_, h2⟩
    cases he with
    | absent ho =>
      rw [getOr, ho, Option.getD_none, Resolver.dictValue, hR _ (by simp)] at h1
      cases h1; rfl

/-- **C47, fonts without an `Encoding`.** The `ToUnicode` map comes first, then the encoding in the font program, or the standard encoding if there
is no font program. -/
theorem type1_font_text {E : FontEnv} (hb : 0 < E.bufsiz) (hR : E.R.Direct) (hG : Spec.AdobeLatin E.glyphs) (ht : EncHeap.initial E.glyphs = .ok E.tables)
    (hnd : E.glyphs (pstr ".notdef") = none) (hun : E.metrics (pstr "unknown") = none)
    {fuel : Nat} {spec : List (Key × Obj)} {f : Font} (hf : buildFont E fuel spec = .ok f) (hk : fontKind spec = .type1)
    (hne : dictGet spec (nm "Encoding") = none) {d : List (Key × Obj)} {w : Option (List (PyStr × Obj))} (hd : DescriptorOf E.R E.metrics spec d w)
    {program : Option (List (Int × Bytes))} (hp : ProgramOf E.file d program)
    (hnames : ∀ es, program = some es → ∀ e ∈ es, (∃ u, name2unicode E.glyphs e.2 = .ok u) ∨ name2unicode E.glyphs e.2 = .error .keyError)
    {es : Option (List Spec.BfEntry)} (hu : ToUnicodeOf E.file spec es)
    {code : Nat} {u r : Option PyStr} (htext : BuiltinText (glyphOf E.glyphs) program code u) (hr : CodeText es u code r) :
    f.toUnichr code = match (generalizing := false) r with
      | some t => .ok t
      | none => .error .unicodeNotDefined := by
  obtain ⟨m, h1, h2⟩ := toUnicode_of hb hu
  cases fuel with
  | zero => cases hf
  | succ fuel =>
    rw [(buildFont_kind E fuel spec).1 hk] at hf
    obtain ⟨d', byCode, byText, table0, umap, core, table, p1, p2, p3, _, p5, rfl⟩ := type1Font_parts hf
    rw [h1] at p3
    cases p3
    obtain ⟨rfl, -⟩ := type1Source_of hR hun hd p1
    have ht : dictGet table (code : Int) = u := by
      rw [type1Table, hne] at p5
      cases hp with
      | absent hp =>
        rw [hp] at p5
        cases p5
        cases htext with
        | program h => cases h
        | standard =>
          exact textOf_unique (simpleEncoding_of hR hG ht (.absent (.absent hne)) p2 code) (.base (by
            intro pre n post h; have := h.1; simp at this))
      | @program sd raw data pts es' n he hl hdat htx h1 =>
        cases he with
        | given ho hv =>
          rw [ho] at p5
          cases hl with
          | given hlo hlv =>
            have hdata : E.getData sd raw = .ok data := by
              revert hdat; simp only [FontEnv.file]; split
              · rename_i h; intro h'; cases h'; exact h
              · intro h'; cases h'
            have hv' : E.R.resolve1 _ = .ok (.stream sd raw) := hv
            have hlv' : E.R.resolve1 _ = .ok (.int n) := hlv
            simp only [fontFileEncoding, Resolver.streamValue, hv', bind, Except.bind, hlo, Resolver.intValue, hlv', hdata] at p5
            have hsl : pySlice data 0 (n : Int) = data.take n := by
              simp only [pySlice, sliceIdx]
              rw [if_neg (by omega)]
              simp
            rw [hsl] at p5
            obtain ⟨m, q1, q2⟩ := type1_encoding E.glyphs hnd E.bufsiz hb (data.take n) pts es' htx h1 (hnames _ rfl)
            rw [q1] at p5
            cases p5
            cases htext with
            | standard h => cases h
            | program h hl => cases h; exact lastNamed_unique (q2 _) hl
    exact h2 table code r (by rw [ht]; exact hr)

/-- The text state gives the text of the font, an empty string for an undefined character if bad characters are ignored. -/
theorem text_state_char (f : Font) (ignoreBad : Bool) (code : Int) (r : Option PyStr)
    (h : f.toUnichr code = match r with | some t => .ok t | none => .error .unicodeNotDefined) :
    toText f ignoreBad code = match (generalizing := false) r, ignoreBad with
      | some t, _ => .ok t
      | none, true => .ok []
      | none, false => .error .unicodeNotDefined := by
  rw [toText, h]
  cases r <;> cases ignoreBad <;> rfl

open Spec (NumberAt CidText collectionName)

theorem numberAt_value {R : Resolver} (hR : R.Direct) {d : List (Key × Obj)} {key : String} {n : Int} {q : ℚ} (h : NumberAt R d key n q) :
    ∃ o, R.numValue (getOr d key (.int n)) = .ok o ∧ o.num = .ok q := by
  cases h with
  | absent h =>
    cases h with
    | absent h => refine ⟨.int n, ?_, rfl⟩; rw [getOr, h, Resolver.numValue, Option.getD_none, hR _ (by simp)]; rfl
  | @given v q h hq =>
    cases h with
    | given ho hv =>
      refine ⟨v, ?_, ?_⟩
      · rw [getOr, ho, Resolver.numValue, Option.getD_some, hv]; simp [hq]
      · rw [Obj.num, hq]

theorem fontCore_default {R : Resolver} {d : List (Key × Obj)} {default : Option Obj} {core : FontCore} (h : fontCore R d default = .ok core) :
    core.hscale = 1 / 1000 ∧ (match default with
      | some o => if o.truthy then core.defaultWidth = o else R.numValue (getOr d "MissingWidth" (.int 0)) = .ok core.defaultWidth
      | none => R.numValue (getOr d "MissingWidth" (.int 0)) = .ok core.defaultWidth) := by
  simp only [fontCore, bind, Except.bind] at h
  split at h
  · cases h
  · split at h
    · cases h
    · split at h
      · cases h
      · split at h
        · cases h
        · split at h
          · cases h
          · cases default with
            | none =>
              dsimp only at h ⊢
              split at h
              · cases h
              · rename_i hw
                split at h
                · cases h
                · split at h
                  · cases h
                  · cases h; exact ⟨rfl, hw⟩
            | some o =>
              dsimp only at h ⊢
              by_cases ho : o.truthy
              · simp only [if_pos ho] at h ⊢
                split at h
                · cases h
                · split at h
                  · cases h
                  · cases h; exact ⟨rfl, rfl⟩
              · simp only [if_neg ho] at h ⊢
                split at h
                · cases h
                · rename_i hw
                  split at h
                  · cases h
                  · split at h
                    · cases h
                    · cases h; exact ⟨rfl, hw⟩

/-- What `char_width` does with a code that has no width. -/
theorem charWidth_missing {f : FontCore} {byCode : List (ℚ × Obj)} {g : Int → Except PyErr PyStr} {code : Int} (hg : ∀ e, g code = .error e → e = .unicodeNotDefined)
    (hc : dictGet byCode (code : ℚ) = none) {q : ℚ} (hq : f.defaultWidth.num = .ok q) : f.charWidth byCode [] g code = .ok (q * f.hscale) := by
  unfold FontCore.charWidth
  simp only [hc, hq]
  cases hgc : g code with
  | ok t => rfl
  | error e => rw [hg e hgc]; rfl

theorem charWidth_given {f : FontCore} {byCode : List (ℚ × Obj)} {byText : List (PyStr × Obj)} {g : Int → Except PyErr PyStr} {code : Int} {w : Obj}
    (hc : dictGet byCode (code : ℚ) = some w) {q : ℚ} (hq : w.num = .ok q) : f.charWidth byCode byText g code = .ok (q * f.hscale) := by
  unfold FontCore.charWidth
  simp only [hc, hq]

theorem simpleUnichr_error {m : Option CodeMap} {t : CodeMap} {c : Int} {e : PyErr} (h : simpleUnichr m t c = .error e) : e = .unicodeNotDefined := by
  unfold simpleUnichr at h
  split at h
  · cases h
  · split at h
    · cases h
    · cases h; rfl

theorem simpleWidths_of {R : Resolver} {spec : List (Key × Obj)} {first : Int} {ws : List Obj} (h1 : Entry R spec "FirstChar" (some (.int first)))
    (h2 : Entry R spec "Widths" (some (.arr ws))) {byCode : List (ℚ × Obj)} (h : simpleWidths R spec = .ok byCode) : byCode = setRun [] (first : ℚ) ws := by
  cases h1 with
  | given o1 v1 =>
    cases h2 with
    | given o2 v2 =>
      simp only [simpleWidths, getOr, o1, o2, Option.getD_some, Resolver.intValue, v1, Resolver.listValue, v2, bind, Except.bind] at h
      cases h; rfl

/-- The widths of a font with `Widths`. -/
theorem run_widths {f : FontCore} {first : Int} {ws : List Obj} {m : Option CodeMap} {t : CodeMap} {q : ℚ} (hq : f.defaultWidth.num = .ok q) :
    (∀ (i : Nat) (w : Obj) (x : ℚ), ws[i]? = some w → w.num? = some x →
      f.charWidth (setRun [] (first : ℚ) ws) [] (simpleUnichr m t) (first + i) = .ok (x * f.hscale)) ∧
    (∀ code : Int, (code < first ∨ first + ws.length ≤ code) → f.charWidth (setRun [] (first : ℚ) ws) [] (simpleUnichr m t) code = .ok (q * f.hscale)) := by
  constructor
  · intro i w x hw hx
    refine charWidth_given (w := w) ?_ (by rw [Obj.num, hx])
    have hi : i < ws.length := (List.getElem?_eq_some_iff.1 hw).1
    rw [setRun_get, if_pos (by constructor <;> omega)]
    rw [← hw]; congr 1; omega
  · intro code hc
    refine charWidth_missing (fun e he => simpleUnichr_error he) ?_ hq
    rw [setRun_get, if_neg (by omega)]
    rfl

/-- **C81, Type 1 and TrueType fonts.** A code has the width that `Widths` gives it, in thousandths; the others have the width `MissingWidth` of
the descriptor. -/
theorem simple_font_widths {E : FontEnv} (hR : E.R.Direct) (hun : E.metrics (pstr "unknown") = none)
    {fuel : Nat} {spec : List (Key × Obj)} {f : Font} (hf : buildFont E fuel spec = .ok f) (hk : fontKind spec = .type1)
    {d : List (Key × Obj)} (hd : DescriptorOf E.R E.metrics spec d none) {first : Int} {ws : List Obj} {q : ℚ}
    (h1 : Entry E.R spec "FirstChar" (some (.int first))) (h2 : Entry E.R spec "Widths" (some (.arr ws))) (hq : NumberAt E.R d "MissingWidth" 0 q) :
    (∀ (i : Nat) (w : Obj) (x : ℚ), ws[i]? = some w → w.num? = some x → f.charWidth (first + i) = .ok (x / 1000)) ∧
    (∀ code : Int, (code < first ∨ first + ws.length ≤ code) → f.charWidth code = .ok (q / 1000)) := by
  cases fuel with
  | zero => cases hf
  | succ fuel =>
    rw [(buildFont_kind E fuel spec).1 hk] at hf
    obtain ⟨d', byCode, byText, table0, umap, core, table, p1, p2, p3, p4, p5, rfl⟩ := type1Font_parts hf
    obtain ⟨rfl, hw, rfl⟩ := type1Source_of hR hun hd p1
    obtain ⟨hs, hdw⟩ := fontCore_default p4
    obtain ⟨o, ho, hoq⟩ := numberAt_value (n := 0) hR (by simpa using hq)
    dsimp only at hdw
    rw [ho] at hdw
    cases hdw
    rw [simpleWidths_of h1 h2 hw]
    have := run_widths (f := core) (first := first) (ws := ws) (m := umap) (t := table) hoq
    rw [hs] at this
    constructor
    · intro i w x hw hx
      rw [div_eq_mul_one_div]; exact this.1 i w x hw hx
    · intro code hc
      rw [div_eq_mul_one_div]; exact this.2 code hc

/-- **C81, standard fonts.** A character of one of the standard fonts has the width in the built-in metrics. -/
theorem standard_font_widths {E : FontEnv} (hR : E.R.Direct) (hun : E.metrics (pstr "unknown") = none)
    {fuel : Nat} {spec : List (Key × Obj)} {f : Font} (hf : buildFont E fuel spec = .ok f) (hk : fontKind spec = .type1)
    {d : List (Key × Obj)} {w : List (PyStr × Obj)} (hd : DescriptorOf E.R E.metrics spec d (some w)) {q : ℚ} (hq : NumberAt E.R d "MissingWidth" 0 q)
    (code : Int) :
    (∀ t o x, f.toUnichr code = .ok t → dictGet w t = some o → o.num? = some x → f.charWidth code = .ok (x / 1000)) ∧
    (∀ t, f.toUnichr code = .ok t → dictGet w t = none → f.charWidth code = .ok (q / 1000)) ∧
    (∀ e, f.toUnichr code = .error e → f.charWidth code = .ok (q / 1000)) := by
  cases fuel with
  | zero => cases hf
  | succ fuel =>
    rw [(buildFont_kind E fuel spec).1 hk] at hf
    obtain ⟨d', byCode, byText, table0, umap, core, table, p1, p2, p3, p4, p5, rfl⟩ := type1Font_parts hf
    obtain ⟨rfl, rfl, rfl⟩ := type1Source_of hR hun hd p1
    obtain ⟨hs, hdw⟩ := fontCore_default p4
    obtain ⟨o, ho, hoq⟩ := numberAt_value (n := 0) hR (by simpa using hq)
    dsimp only at hdw
    rw [ho] at hdw
    cases hdw
    refine ⟨fun t o x ht ho hx => ?_, fun t ht hw => ?_, fun e he => ?_⟩
    · show core.charWidth [] _ (simpleUnichr umap table) code = _
      have ht' : simpleUnichr umap table code = .ok t := ht
      have hox : o.num = .ok x := by rw [Obj.num, hx]
      unfold FontCore.charWidth
      simp only [ht', ho, hox, hs, dictGet]
      congr 1; ring
    · show core.charWidth [] _ (simpleUnichr umap table) code = _
      have ht' : simpleUnichr umap table code = .ok t := ht
      unfold FontCore.charWidth
      simp only [ht', hw, hoq, hs, dictGet]
      congr 1; ring
    · show core.charWidth [] _ (simpleUnichr umap table) code = _
      have ht' : simpleUnichr umap table code = .error e := he
      have he' := simpleUnichr_error ht'
      unfold FontCore.charWidth
      simp only [ht', he', hoq, hs, dictGet]
      simp
      ring

/-- **C81, Type 3 fonts** with a matrix that only scales: the widths are scaled by the matrix. -/
theorem type3_font_widths {E : FontEnv} (hR : E.R.Direct) {fuel : Nat} {spec : List (Key × Obj)} {f : Font} (hf : buildFont E fuel spec = .ok f)
    (hk : fontKind spec = .type3) {d : List (Key × Obj)} (hd : Entry E.R spec "FontDescriptor" (some (.dict d)) ∨
      ∃ b, Entry E.R spec "FontDescriptor" none ∧ dictGet spec (nm "FontBBox") = some b ∧ d = [(nm "Ascent", .int 0), (nm "Descent", .int 0), (nm "FontBBox", b)])
    {first : Int} {ws : List Obj} {q : ℚ} (h1 : Entry E.R spec "FirstChar" (some (.int first))) (h2 : Entry E.R spec "Widths" (some (.arr ws)))
    (hq : NumberAt E.R d "MissingWidth" 0 q) {a b c e x y : Obj} {s : ℚ} (hm : Entry E.R spec "FontMatrix" (some (.arr [a, b, c, e, x, y])))
    (ha : a.num? = some s) (hc : c.num? = some 0) :
    (∀ (i : Nat) (w : Obj) (x : ℚ), ws[i]? = some w → w.num? = some x → f.charWidth (first + i) = .ok (x * s)) ∧
    (∀ code : Int, (code < first ∨ first + ws.length ≤ code) → f.charWidth code = .ok (q * s)) := by
  cases fuel with
  | zero => cases hf
  | succ fuel =>
    rw [(buildFont_kind E fuel spec).2.1 hk] at hf
    obtain ⟨d', byCode, umap, core, table, a', b', c', e', x', y', x0, y0, x1, y1, qa, qb, qc, qe, p1, p2, p3, p4, p5, p6, _, n1, n2, n3, n4, rfl⟩ :=
      type3Font_parts hf
    have hdd : d' = d := by
      rcases hd with hd | ⟨b, hd, hb, rfl⟩
      · cases hd with
        | given ho hv => rw [type3Descriptor, ho] at p2; simp only [Resolver.dictValue, hv] at p2; cases p2; rfl
      · cases hd with
        | absent ho => rw [type3Descriptor, ho] at p2; simp only [hb] at p2; cases p2; rfl
    subst hdd
    obtain ⟨hs, hdw⟩ := fontCore_default p5
    obtain ⟨o, ho, hoq⟩ := numberAt_value (n := 0) hR (by simpa using hq)
    dsimp only at hdw
    rw [ho] at hdw
    cases hdw
    rw [simpleWidths_of h1 h2 p1]
    cases hm with
    | given om vm =>
      rw [getOr, om, Option.getD_some, Resolver.listValue, vm] at p6
      cases p6
      rw [Obj.num, ha] at n1
      rw [Obj.num, hc] at n3
      cases n1
      cases n3
      have := run_widths (f := { core with descent := y0, ascent := y1, hscale := s + 0, vscale := qb + qe }) (first := first) (ws := ws) (m := umap) (t := table) hoq
      simp only [add_zero] at this ⊢
      exact this

/-- The text of a code of a CID font. -/
theorem cidUnichr_error {m : Option CodeMap} {c : Int} {e : PyErr} (h : cidUnichr m c = .error e) : e = .unicodeNotDefined := by
  unfold cidUnichr at h
  split at h
  · cases h
  · cases h; rfl

/-- How a CID font is put together. -/
theorem cidFont_parts {E : FontEnv} {spec : List (Key × Obj)} {f : Font} (h : cidFont E spec = .ok f) :
    ∃ info registry ordering cmap d umap, E.R.dictValue (getOr spec "CIDSystemInfo" (.dict [])) = .ok info ∧ latin1Entry E.R info "Registry" = .ok registry ∧
      latin1Entry E.R info "Ordering" = .ok ordering ∧ cidCmap E (dictGet spec (nm "Encoding")) = .ok cmap ∧ cidDescriptor E.R spec = .ok d ∧
      cidUnicodeMap E spec d (registry ++ 45 :: ordering) cmap.vertical = .ok umap ∧
      f.toUnichr = cidUnichr umap ∧ f.decode = cmap.decode ∧ f.vertical = cmap.vertical ∧
      (cmap.vertical = false → ∃ w widths core, E.R.listValue (getOr spec "W" (.arr [])) = .ok w ∧ getWidths w = .ok widths ∧
        fontCore E.R d (some (getOr spec "DW" (.int 1000))) = .ok core ∧ f.charWidth = core.charWidth widths [] (cidUnichr umap)) ∧
      (cmap.vertical = true → ∃ w2 disps vy w core, E.R.listValue (getOr spec "W2" (.arr [])) = .ok w2 ∧ getWidths2 w2 = .ok disps ∧
        getOr spec "DW2" (.arr [.int 880, .int (-1000)]) = .arr [vy, w] ∧ fontCore E.R d (some w) = .ok core ∧
        f.charWidth = core.charWidth (disps.map fun e => (e.1, e.2.1)) [] (cidUnichr umap) ∧ f.charDisp = cidDisp disps vy) := by
  simp only [cidFont, bind, Except.bind] at h
  split at h
  · cases h
  · rename_i info hinfo
    split at h
    · cases h
    · rename_i registry hr
      split at h
      · cases h
      · rename_i ordering ho
        split at h
        · cases h
        · rename_i cmap hcm
          split at h
          · cases h
          · rename_i d hd
            split at h
            · cases h
            · rename_i umap hu
              split at h
              · rename_i hv
                split at h
                · cases h
                · rename_i w2 hw2
                  split at h
                  · cases h
                  · rename_i disps hdi
                    split at h
                    · rename_i vy w hdw
                      split at h
                      · cases h
                      · rename_i core hcore
                        cases h
                        exact ⟨info, registry, ordering, cmap, d, umap, hinfo, hr, ho, hcm, hd, hu, rfl, rfl, hv.symm, fun h => absurd (hv.symm.trans h) (by decide),
                          fun _ => ⟨w2, disps, vy, w, core, hw2, hdi, hdw, hcore, rfl, rfl⟩⟩
                    · cases h
                    · cases h
              · rename_i hv
                have hv' : cmap.vertical = false := by simpa using hv
                split at h
                · cases h
                · rename_i w hw
                  split at h
                  · cases h
                  · rename_i widths hwi
                    split at h
                    · cases h
                    · rename_i core hcore
                      cases h
                      exact ⟨info, registry, ordering, cmap, d, umap, hinfo, hr, ho, hcm, hd, hu, rfl, rfl, hv'.symm,
                        fun _ => ⟨w, widths, core, hw, hwi, hcore, rfl⟩, fun h => absurd h hv⟩

theorem cidToUnicode_of {E : FontEnv} (hb : 0 < E.bufsiz) {spec : List (Key × Obj)} {es : Option (List Spec.BfEntry)} (h : ToUnicodeOf E.file spec es)
    {d : List (Key × Obj)} {coding : PyStr} {vertical : Bool} {m : Option CodeMap} (hm : cidUnicodeMap E spec d coding vertical = .ok m)
    {collection : Option PyStr} {code : Nat}
    (hc : collection = if coding = pstr "Adobe-Identity" ∨ coding = pstr "Adobe-UCS" then none
      else (E.umapFile coding).bind fun t => dictGet (if vertical then t.2 else t.1) (code : Int))
    {r : Option PyStr} (hr : CidText es collection code r) :
    cidUnichr m code = match (generalizing := false) r with
      | some t => .ok t
      | none => .error .unicodeNotDefined := by
  unfold cidUnicodeMap at hm
  split at hm
  · cases hm
  · obtain ⟨m', h1, h2⟩ := toUnicode_of hb h
    cases h with
    | absent h =>
      cases h with
      | absent h =>
        rw [h] at hm
        cases hr with
        | unicode h => cases h
        | unknown h => cases h
        | collection =>
          have e1 : (asc "Adobe-Identity").map UInt8.toNat = pstr "Adobe-Identity" := by decide +kernel
          have e2 : (asc "Adobe-UCS").map UInt8.toNat = pstr "Adobe-UCS" := by decide +kernel
          simp only [e1, e2] at hm
          rw [hc]
          split at hm
          · rename_i hi; cases hm; rw [if_pos hi]; rfl
          · rename_i hi
            cases hm
            rw [if_neg hi, cidUnichr]
            cases E.umapFile coding with
            | none => rfl
            | some t =>
              simp only [Option.map_some, Option.bind_some]
              cases dictGet (if vertical then t.2 else t.1) (code : Int) <;> rfl
    | @map sd raw data pts es h hd ht hcm hs =>
      cases h with
      | given ho hv =>
        rw [ho] at hm
        dsimp only at hm
        rw [h1] at hm
        cases hm
        have heq : ∀ m, cidUnichr m code = simpleUnichr m [] code := fun _ => rfl
        rw [heq]
        cases hr with
        | collection h => cases h
        | unicode h hl => exact h2 [] code _ (.unicode h hl)
        | unknown h hl => exact h2 [] code none (.other fun l hl' => by rw [h] at hl'; cases hl'; exact hl)

/-- **C47, CID fonts.** The text of a code of a CID font is what its `ToUnicode` map says; without such a map, what the file for its character
collection says, for horizontal or vertical writing; else the character is undefined. -/
theorem cid_font_text {E : FontEnv} (hb : 0 < E.bufsiz) {fuel : Nat} {spec : List (Key × Obj)} {f : Font} (hf : buildFont E fuel spec = .ok f)
    (hk : fontKind spec = .cid) {info : List (Key × Obj)} {registry ordering : Bytes} (hi : Entry E.R spec "CIDSystemInfo" (some (.dict info)))
    (hreg : Entry E.R info "Registry" (some (.str registry))) (hord : Entry E.R info "Ordering" (some (.str ordering)))
    {es : Option (List Spec.BfEntry)} (hu : ToUnicodeOf E.file spec es) {code : Nat} {collection r : Option PyStr}
    (hc : collection = if collectionName registry ordering = pstr "Adobe-Identity" ∨ collectionName registry ordering = pstr "Adobe-UCS" then none
      else (E.umapFile (collectionName registry ordering)).bind fun t => dictGet (if f.vertical then t.2 else t.1) (code : Int))
    (hr : CidText es collection code r) :
    f.toUnichr code = match (generalizing := false) r with
      | some t => .ok t
      | none => .error .unicodeNotDefined := by
  cases fuel with
  | zero => cases hf
  | succ fuel =>
    rw [(buildFont_kind E fuel spec).2.2.1 hk] at hf
    obtain ⟨info', reg', ord', cmap, d, umap, p1, p2, p3, p4, p5, p6, q1, q2, q3, -, -⟩ := cidFont_parts hf
    rw [q1]
    have e1 : info' = info := by
      cases hi with
      | given ho hv => rw [getOr, ho, Option.getD_some, Resolver.dictValue, hv] at p1; cases p1; rfl
    subst e1
    have e2 : reg' = registry.map UInt8.toNat := by
      cases hreg with
      | given ho hv => rw [latin1Entry, getOr, ho, Option.getD_some, hv] at p2; cases p2; rfl
    have e3 : ord' = ordering.map UInt8.toNat := by
      cases hord with
      | given ho hv => rw [latin1Entry, getOr, ho, Option.getD_some, hv] at p3; cases p3; rfl
    subst e2 e3
    rw [q3] at hc
    exact cidToUnicode_of hb hu p6 hc hr

/-- **C81, CID fonts with horizontal writing.** A CID has the width that the array `W` gives it, else the default width `DW`, in thousandths. -/
theorem cid_font_widths {E : FontEnv} {fuel : Nat} {spec : List (Key × Obj)} {f : Font} (hf : buildFont E fuel spec = .ok f)
    (hk : fontKind spec = .cid) (hv : f.vertical = false) {w : List Obj} {es : List (Spec.WidthEntry Obj)} (hw : Entry E.R spec "W" (some (.arr w)))
    (hes : Spec.WArray w es) {dw : Obj} {q : ℚ} (hdw : dictGet spec (nm "DW") = some dw ∨ dictGet spec (nm "DW") = none ∧ dw = .int 1000)
    (hq : dw.num? = some q) (hq0 : q ≠ 0) (cid : Int) :
    (∀ o x, Spec.WidthOf es cid (some o) → o.num? = some x → f.charWidth cid = .ok (x / 1000)) ∧
    (Spec.WidthOf es cid none → f.charWidth cid = .ok (q / 1000)) := by
  cases fuel with
  | zero => cases hf
  | succ fuel =>
    rw [(buildFont_kind E fuel spec).2.2.1 hk] at hf
    obtain ⟨info', reg', ord', cmap, d, umap, p1, p2, p3, p4, p5, p6, q1, q2, q3, hh, -⟩ := cidFont_parts hf
    obtain ⟨w', widths, core, r1, r2, r3, r4⟩ := hh (by rw [← q3]; exact hv)
    have e1 : w' = w := by
      cases hw with
      | given ho hv => rw [getOr, ho, Option.getD_some, Resolver.listValue, hv] at r1; cases r1; rfl
    subst e1
    obtain ⟨m, m1, m2⟩ := widths_array hes
    rw [r2] at m1
    cases m1
    have edw : getOr spec "DW" (.int 1000) = dw := by
      rcases hdw with h | ⟨h, h'⟩
      · rw [getOr, h]; rfl
      · rw [getOr, h, h']; rfl
    rw [edw] at r3
    obtain ⟨hs, hcore⟩ := fontCore_default r3
    have htr : dw.truthy = true := by
      cases dw with
      | int n => simp only [Obj.num?, Option.some.injEq] at hq; simp only [Obj.truthy]; subst hq; simpa using hq0
      | real m k =>
        simp only [Obj.num?, Option.some.injEq] at hq; simp only [Obj.truthy]
        subst hq
        by_contra hc
        simp at hc
        exact hq0 (by rw [hc]; simp)
      | bool b => cases b <;> simp_all [Obj.num?, Obj.truthy]
      | _ => cases hq
    dsimp only at hcore
    rw [if_pos htr] at hcore
    rw [r4]
    constructor
    · intro o x ho hx
      rw [charWidth_given ((m2 cid (some o)).2 ho) (by rw [Obj.num, hx]), hs]
      congr 1; ring
    · intro hn
      rw [charWidth_missing (fun e he => cidUnichr_error he) ((m2 cid none).2 hn) (q := q) (by rw [hcore, Obj.num, hq]), hs]
      congr 1; ring

theorem dictGet_map_val {κ α β : Type} [DecidableEq κ] (g : α → β) (l : List (κ × α)) (k : κ) :
    dictGet (l.map fun e => (e.1, g e.2)) k = (dictGet l k).map g := by
  induction l with
  | nil => rfl
  | cons x xs ih =>
    obtain ⟨a, b⟩ := x
    simp only [List.map_cons, dictGet]
    split
    · rfl
    · exact ih

/-- **C81, CID fonts with vertical writing.** A CID has the vertical displacement and the position vector that the array `W2` gives it, else those
of `DW2`, the horizontal component of which is half of the width. -/
theorem cid_font_vertical {E : FontEnv} {fuel : Nat} {spec : List (Key × Obj)} {f : Font} (hf : buildFont E fuel spec = .ok f)
    (hk : fontKind spec = .cid) (hv : f.vertical = true) {w2 : List Obj} {es : List (Spec.WidthEntry (Obj × Obj × Obj))}
    (hw : Entry E.R spec "W2" (some (.arr w2))) (hes : Spec.W2Array w2 es) {vy w : Obj} {qv qw : ℚ}
    (hdw : dictGet spec (nm "DW2") = some (.arr [vy, w]) ∨ dictGet spec (nm "DW2") = none ∧ vy = .int 880 ∧ w = .int (-1000))
    (hqv : vy.num? = some qv) (hqw : w.num? = some qw) (hq0 : qw ≠ 0) (cid : Int) :
    (∀ a b c xa xb xc, Spec.WidthOf es cid (some (a, b, c)) → a.num? = some xa → b.num? = some xb → c.num? = some xc →
      f.charWidth cid = .ok (xa / 1000) ∧ f.charDisp cid = .ok (some xb, xc)) ∧
    (Spec.WidthOf es cid none → f.charWidth cid = .ok (qw / 1000) ∧ f.charDisp cid = .ok (none, qv)) := by
  cases fuel with
  | zero => cases hf
  | succ fuel =>
    rw [(buildFont_kind E fuel spec).2.2.1 hk] at hf
    obtain ⟨info', reg', ord', cmap, d, umap, p1, p2, p3, p4, p5, p6, q1, q2, q3, -, hh⟩ := cidFont_parts hf
    obtain ⟨w2', disps, vy', w', core, r1, r2, r3, r4, r5, r6⟩ := hh (by rw [← q3]; exact hv)
    have e1 : w2' = w2 := by
      cases hw with
      | given ho hv => rw [getOr, ho, Option.getD_some, Resolver.listValue, hv] at r1; cases r1; rfl
    subst e1
    obtain ⟨m, m1, m2⟩ := widths2_array hes
    rw [r2] at m1
    cases m1
    have edw : vy' = vy ∧ w' = w := by
      rcases hdw with h | ⟨h, h1, h2⟩
      · rw [getOr, h] at r3; cases r3; exact ⟨rfl, rfl⟩
      · rw [getOr, h] at r3; cases r3; exact ⟨h1.symm, h2.symm⟩
    obtain ⟨rfl, rfl⟩ := edw
    obtain ⟨hs, hcore⟩ := fontCore_default r4
    have htr : w'.truthy = true := by
      cases w' with
      | int n => simp only [Obj.num?, Option.some.injEq] at hqw; simp only [Obj.truthy]; subst hqw; simpa using hq0
      | real m k =>
        simp only [Obj.num?, Option.some.injEq] at hqw; simp only [Obj.truthy]
        subst hqw
        by_contra hc
        simp at hc
        exact hq0 (by rw [hc]; simp)
      | bool b => cases b <;> simp_all [Obj.num?, Obj.truthy]
      | _ => cases hqw
    dsimp only at hcore
    rw [if_pos htr] at hcore
    rw [r5, r6]
    have hmap := dictGet_map_val (fun e : Obj × Obj × Obj => e.1) disps (cid : ℚ)
    constructor
    · intro a b c xa xb xc hw ha hb hc
      have hg := (m2 cid _).2 hw
      constructor
      · rw [charWidth_given (hmap.trans (by rw [hg]; rfl)) (by rw [Obj.num, ha]), hs]
        congr 1; ring
      · rw [cidDisp, hg]
        have hbn : b.num = .ok xb := by rw [Obj.num, hb]
        have hcn : c.num = .ok xc := by rw [Obj.num, hc]
        simp only [hcn, bind, Except.bind]
        cases b with
        | null => cases hb
        | _ => simp only [hbn, Except.map]
    · intro hn
      have hg := (m2 cid _).2 hn
      constructor
      · rw [charWidth_missing (fun e he => cidUnichr_error he) (hmap.trans (by rw [hg]; rfl)) (q := qw) (by rw [hcore, Obj.num, hqw]), hs]
        congr 1; ring
      · rw [cidDisp, hg, Obj.num, hqv]

open Spec (FirstBuilt)

theorem composeSpec_get {R : Resolver} {spec d sub : List (Key × Obj)} (h : composeSpec R spec d = .ok sub) :
    (∀ k, k ≠ nm "Encoding" → k ≠ nm "ToUnicode" → dictGet sub k = dictGet d k) ∧
    (match dictGet spec (nm "Encoding") with
      | some o => ∃ v, R.resolve1 o = .ok v ∧ dictGet sub (nm "Encoding") = some v
      | none => dictGet sub (nm "Encoding") = dictGet d (nm "Encoding")) ∧
    (match dictGet spec (nm "ToUnicode") with
      | some o => ∃ v, R.resolve1 o = .ok v ∧ dictGet sub (nm "ToUnicode") = some v
      | none => dictGet sub (nm "ToUnicode") = dictGet d (nm "ToUnicode")) := by
  have hne : nm "Encoding" ≠ nm "ToUnicode" := by decide +kernel
  unfold composeSpec at h
  generalize nm "ToUnicode" = kt at *
  generalize nm "Encoding" = ke at *
  cases h1 : dictGet spec ke with
  | none =>
    cases h2 : dictGet spec kt with
    | none =>
      simp only [h1, h2, bind, Except.bind] at h
      cases h
      exact ⟨fun _ _ _ => rfl, rfl, rfl⟩
    | some o =>
      simp only [h1, h2, bind, Except.bind] at h
      cases hv : R.resolve1 o with
      | error e => rw [hv] at h; cases h
      | ok v =>
        rw [hv] at h; cases h
        refine ⟨fun k _ hk => ?_, ?_, v, hv, ?_⟩
        · rw [dictGet_dictSet, if_neg (Ne.symm hk)]
        · rw [dictGet_dictSet, if_neg (Ne.symm hne)]
        · rw [dictGet_dictSet, if_pos rfl]
  | some o1 =>
    cases hv1 : R.resolve1 o1 with
    | error e => simp only [h1, hv1, bind, Except.bind, Except.map] at h; cases h
    | ok v1 =>
      cases h2 : dictGet spec kt with
      | none =>
        simp only [h1, h2, hv1, bind, Except.bind, Except.map] at h
        cases h
        refine ⟨fun k hk _ => ?_, ⟨v1, hv1, ?_⟩, ?_⟩
        · rw [dictGet_dictSet, if_neg (Ne.symm hk)]
        · rw [dictGet_dictSet, if_pos rfl]
        · rw [dictGet_dictSet, if_neg hne]
      | some o =>
        simp only [h1, h2, hv1, bind, Except.bind, Except.map] at h
        cases hv : R.resolve1 o with
        | error e => rw [hv] at h; cases h
        | ok v =>
          rw [hv] at h; cases h
          refine ⟨fun k hk hk' => ?_, ⟨v1, hv1, ?_⟩, v, hv, ?_⟩
          · rw [dictGet_dictSet, if_neg (Ne.symm hk'), dictGet_dictSet, if_neg (Ne.symm hk)]
          · rw [dictGet_dictSet, if_neg (Ne.symm hne), dictGet_dictSet, if_pos rfl]
          · rw [dictGet_dictSet, if_pos rfl]

/-- **C47, composite fonts.** A composite font is its descendant, with the entries `Encoding` and `ToUnicode` of the composite font if it has them. -/
theorem composite_font {E : FontEnv} {fuel : Nat} {spec : List (Key × Obj)} {f : Font} (hf : buildFont E fuel spec = .ok f)
    (hk : fontKind spec = .composite) {f0 : Obj} {fs : List Obj} {d : List (Key × Obj)} (hd : Entry E.R spec "DescendantFonts" (some (.arr (f0 :: fs))))
    (h0 : E.R.resolve1 f0 = .ok (.dict d)) :
    ∃ fuel' sub, buildFont E fuel' sub = .ok f ∧ (∀ k, k ≠ nm "Encoding" → k ≠ nm "ToUnicode" → dictGet sub k = dictGet d k) ∧
      (∀ key, key = "Encoding" ∨ key = "ToUnicode" → match dictGet spec (nm key) with
        | some o => ∃ v, E.R.resolve1 o = .ok v ∧ dictGet sub (nm key) = some v
        | none => dictGet sub (nm key) = dictGet d (nm key)) := by
  cases fuel with
  | zero => cases hf
  | succ fuel =>
    cases hd with
    | @given o _ ho hv =>
      have hne : nm "ToUnicode" ≠ nm "Encoding" := by decide +kernel
      have hsub : ∃ sub, composeSpec E.R spec d = .ok sub := by
        by_contra hc
        push Not at hc
        cases hcs : composeSpec E.R spec d with
        | ok sub => exact hc sub hcs
        | error e =>
          have hk' := hk
          rw [fontKind_asc] at hk'
          rw [buildFont_succ, getOr] at hf
          cases hst : dictGet spec (nm "Subtype") with
          | none => rw [hst] at hk'; cases hk'
          | some t =>
            rw [hst] at hk' hf
            cases t with
            | name n =>
              dsimp only [Option.getD_some] at hk' hf
              by_cases h1 : n = asc "Type3"
              · rw [if_pos h1] at hk'; cases hk'
              · rw [if_neg h1] at hk' hf
                by_cases h2 : n = asc "CIDFontType0" ∨ n = asc "CIDFontType2"
                · rw [if_pos h2] at hk'; cases hk'
                · rw [if_neg h2] at hk' hf
                  by_cases h3 : n = asc "Type0"
                  · rw [if_pos h3] at hf
                    simp only [ho, Resolver.listValue, hv, Resolver.dictValue, h0, hcs, bind, Except.bind] at hf
                    cases hf
                  · rw [if_neg h3] at hk'; cases hk'
            | _ => cases hk'
      obtain ⟨sub, hsub⟩ := hsub
      rw [(buildFont_kind E fuel spec).2.2.2 hk o f0 fs d sub ho hv h0 hsub] at hf
      refine ⟨fuel, sub, hf, ?_⟩
      obtain ⟨c1, c2, c3⟩ := composeSpec_get hsub
      refine ⟨c1, fun key hkey => ?_⟩
      rcases hkey with rfl | rfl
      · exact c2
      · exact c3

/-- A `ToUnicode` map of the composite font is the map of its descendant. -/
theorem composite_tounicode {F : Spec.FontFile} (hR : F.R.Direct) {spec sub : List (Key × Obj)} {es : List Spec.BfEntry} (h : ToUnicodeOf F spec (some es))
    (hs : ∀ o, dictGet spec (nm "ToUnicode") = some o → ∃ v, F.R.resolve1 o = .ok v ∧ dictGet sub (nm "ToUnicode") = some v) : ToUnicodeOf F sub (some es) := by
  cases h with
  | map he hd ht hc hsane =>
    cases he with
    | given ho hv =>
      obtain ⟨v, h1, h2⟩ := hs _ ho
      rw [hv] at h1
      cases h1
      exact .map (.given h2 (hR _ (by simp))) hd ht hc hsane

/-- The cache after a history of calls. -/
def fontCacheAfter (E : FontEnv) (fuel : Nat) (cache : List (Int × Font)) (calls : List (Option Int × List (Key × Obj))) : List (Int × Font) :=
  calls.foldl (fun c r => (getFontCached E fuel c r.1 r.2).2) cache

theorem fontCalls_append (E : FontEnv) (fuel : Nat) (cache : List (Int × Font)) (a b : List (Option Int × List (Key × Obj))) :
    fontCalls E fuel cache (a ++ b) = fontCalls E fuel cache a ++ fontCalls E fuel (fontCacheAfter E fuel cache a) b := by
  induction a generalizing cache with
  | nil => rfl
  | cons x a ih => obtain ⟨i, spec⟩ := x; simp only [List.cons_append, fontCalls, ih]; rfl

theorem fontCalls_length (E : FontEnv) (fuel : Nat) (cache : List (Int × Font)) (a : List (Option Int × List (Key × Obj))) :
    (fontCalls E fuel cache a).length = a.length := by
  induction a generalizing cache with
  | nil => rfl
  | cons x a ih => obtain ⟨i, spec⟩ := x; simp only [fontCalls, List.length_cons, ih]

theorem fontCache_first (E : FontEnv) (fuel : Nat) (calls : List (Option Int × List (Key × Obj))) (k : Int) (hk : k ≠ 0) :
    FirstBuilt (buildFont E fuel) calls k (dictGet (fontCacheAfter E fuel [] calls) k) := by
  induction calls using List.reverseRecOn with
  | nil => exact .none (by simp)
  | append_singleton a x ih =>
    obtain ⟨i, spec⟩ := x
    have hstep : fontCacheAfter E fuel [] (a ++ [(i, spec)]) = (getFontCached E fuel (fontCacheAfter E fuel [] a) i spec).2 := by
      simp [fontCacheAfter]
    rw [hstep]
    generalize fontCacheAfter E fuel [] a = cache at *
    -- an old font stays, and nothing new comes for other numbers
    have old : ∀ f, FirstBuilt (buildFont E fuel) a k (some f) → FirstBuilt (buildFont E fuel) (a ++ [(i, spec)]) k (some f) := by
      intro f h
      cases h with
      | found h1 h2 h3 => exact .found (by rw [h1, List.append_assoc, List.cons_append]) h2 h3
    have nothing : FirstBuilt (buildFont E fuel) a k none → (i = some k → ∀ f, buildFont E fuel spec ≠ .ok f) →
        FirstBuilt (buildFont E fuel) (a ++ [(i, spec)]) k none := by
      intro h hn
      cases h with
      | none h =>
        refine .none fun spec' hs f' => ?_
        rcases List.mem_append.1 hs with hs | hs
        · exact h spec' hs f'
        · simp only [List.mem_singleton, Prod.mk.injEq] at hs
          obtain ⟨rfl, rfl⟩ := hs
          exact hn rfl f'
    have keep : (i = some k → ∀ f, buildFont E fuel spec ≠ .ok f) → FirstBuilt (buildFont E fuel) (a ++ [(i, spec)]) k (dictGet cache k) := by
      intro hn
      cases hc : dictGet cache k with
      | none => rw [hc] at ih; exact nothing ih hn
      | some f => rw [hc] at ih; exact old f ih
    cases i with
    | none => exact keep (by simp)
    | some j =>
      simp only [getFontCached]
      by_cases hj : j = 0
      · rw [if_pos hj]; exact keep (by simp only [Option.some.injEq]; omega)
      · rw [if_neg hj]
        cases hc : dictGet cache j with
        | some f =>
          dsimp only
          by_cases hjk : j = k
          · subst hjk; rw [hc] at ih ⊢; exact old f ih
          · exact keep (by simp only [Option.some.injEq]; intro h; exact absurd h hjk)
        | none =>
          dsimp only
          cases hbuild : buildFont E fuel spec with
          | error e => exact keep (fun _ f => by rw [hbuild]; simp)
          | ok f =>
            dsimp only
            rw [dictGet_dictSet]
            by_cases hjk : j = k
            · subst hjk
              rw [if_pos rfl]
              rw [hc] at ih
              cases ih with
              | none h => exact .found rfl hbuild h
            · rw [if_neg hjk]
              exact keep (by simp only [Option.some.injEq]; intro h; exact absurd h hjk)

theorem firstBuilt_unique {ε σ φ : Type} {build : σ → Except ε φ} {calls : List (Option Int × σ)} {k : Int} {r r' : Option φ}
    (h : FirstBuilt build calls k r) (h' : FirstBuilt build calls k r') : r = r' := by
  cases h with
  | none h =>
    cases h' with
    | none => rfl
    | found h1 h2 _ => exact absurd h2 (h _ (by rw [h1]; simp) _)
  | @found b s a f h1 h2 h3 =>
    cases h' with
    | none h => exact absurd h2 (h _ (by rw [h1]; simp) _)
    | @found b' s' a' f' h1' h2' h3' =>
      rw [h1] at h1'
      rcases List.append_eq_append_iff.1 h1' with ⟨c, e1, e2⟩ | ⟨c, e1, e2⟩
      · cases c with
        | nil => simp at e2; rw [← e2.1, h2] at h2'; cases h2'; rfl
        | cons x c =>
          simp only [List.cons_append, List.cons.injEq] at e2
          exact absurd h2 (h3' s (by rw [e1, ← e2.1]; simp) _)
      · cases c with
        | nil => simp at e2; rw [e2.1, h2] at h2'; cases h2'; rfl
        | cons x c =>
          simp only [List.cons_append, List.cons.injEq] at e2
          exact absurd h2' (h3 s' (by rw [e1, ← e2.1]; simp) _)

/-- **C48.** In every history of requests, a request with an object number gets the font that the first successful request with that number
has built, and a new font if there is none. A request without an object number always gets a new font. -/
theorem font_cache (E : FontEnv) (fuel : Nat) (before after : List (Option Int × List (Key × Obj))) (objid : Option Int) (spec : List (Key × Obj)) :
    ∃ r, (fontCalls E fuel [] (before ++ (objid, spec) :: after))[before.length]? = some r ∧
      (objid = none ∨ objid = some 0 → r = buildFont E fuel spec) ∧
      (∀ k, objid = some k → k ≠ 0 →
        (∀ f, FirstBuilt (buildFont E fuel) before k (some f) → r = .ok f) ∧
        (FirstBuilt (buildFont E fuel) before k none → r = buildFont E fuel spec)) := by
  refine ⟨(getFontCached E fuel (fontCacheAfter E fuel [] before) objid spec).1, ?_, ?_, ?_⟩
  · rw [fontCalls_append, List.getElem?_append_right (by rw [fontCalls_length]), fontCalls_length]
    simp [fontCalls]
  · rintro (rfl | rfl) <;> rfl
  · rintro k rfl hk
    have hfirst := fontCache_first E fuel before k hk
    simp only [getFontCached, if_neg hk]
    generalize dictGet (fontCacheAfter E fuel [] before) k = c at *
    constructor
    · intro f hf
      rw [firstBuilt_unique hfirst hf]
    · intro hn
      rw [firstBuilt_unique hfirst hn]
      dsimp only
      cases buildFont E fuel spec <;> rfl

/-- **C48.** If requests with the same object number always have the same dictionary, then the cache changes nothing. -/
theorem font_cache_transparent (E : FontEnv) (fuel : Nat) (calls : List (Option Int × List (Key × Obj)))
    (h : ∀ k s s', (some k, s) ∈ calls → (some k, s') ∈ calls → s = s') :
    fontCalls E fuel [] calls = calls.map fun c => buildFont E fuel c.2 := by
  refine List.ext_getElem? fun i => ?_
  by_cases hi : i < calls.length
  · have hsplit : calls = calls.take i ++ calls[i] :: calls.drop (i + 1) := by
      rw [← List.drop_eq_getElem_cons hi, List.take_append_drop]
    obtain ⟨r, h1, h2, h3⟩ := font_cache E fuel (calls.take i) (calls.drop (i + 1)) calls[i].1 calls[i].2
    rw [← hsplit] at h1
    have hlen : (calls.take i).length = i := by simp; omega
    rw [hlen] at h1
    rw [h1, List.getElem?_map, List.getElem?_eq_getElem hi, Option.map_some]
    congr 1
    cases ho : calls[i].1 with
    | none => exact h2 (.inl ho)
    | some k =>
      by_cases hk : k = 0
      · subst hk
        exact h2 (.inr ho)
      · obtain ⟨g1, g2⟩ := h3 k ho hk
        have hf := fontCache_first E fuel (calls.take i) k hk
        cases hc : dictGet (fontCacheAfter E fuel [] (calls.take i)) k with
        | none => rw [hc] at hf; exact g2 hf
        | some f =>
          rw [hc] at hf
          rw [g1 f hf]
          cases hf with
          | @found b s a f e1 e2 e3 =>
            have hs : s = calls[i].2 := by
              refine h k s calls[i].2 (List.mem_of_mem_take (by rw [e1]; simp)) ?_
              rw [← ho]; exact List.getElem_mem hi
            rw [← hs, e2]
  · rw [List.getElem?_eq_none (by rw [fontCalls_length]; omega), List.getElem?_eq_none (by simp; omega)]

/-! ### Examples -/

/-- The Latin glyph names, one standard font, no files. -/
def sampleFontEnv : FontEnv where
  R := tableResolver []
  glyphs := latinGlyphs
  tables := match EncHeap.initial latinGlyphs with
    | .ok h => h
    | .error _ => []
  metrics n := if n = pstr "Helvetica" then some ([(nm "FontName", .name (asc "Helvetica"))], [(pstr "A", .int 667)]) else none
  getData _ raw := .ok raw
  cmapFile _ := none
  umapFile n := if n = pstr "Adobe-Japan1" then some ([(1, [32])], []) else none
  bufsiz := 4096

theorem sampleFontEnv_tables : EncHeap.initial sampleFontEnv.glyphs = .ok sampleFontEnv.tables := by
  obtain ⟨h0, h, -⟩ := builtin_tables adobeLatin_example
  simp only [sampleFontEnv, h]

theorem sampleFontEnv_direct : sampleFontEnv.R.Direct := by
  intro o ho
  cases o with
  | ref i g => exact absurd rfl (ho i g)
  | _ => rfl

/-- A font with differences and a `ToUnicode` map for the code 66. -/
def sampleSimpleSpec : List (Key × Obj) :=
  [(nm "Subtype", .name (asc "TrueType")), (nm "FirstChar", .int 65), (nm "Widths", .arr [.int 500, .int 600]),
    (nm "Encoding", .dict [(nm "BaseEncoding", .name (asc "WinAnsiEncoding")), (nm "Differences", .arr [.int 67, .name (asc "germandbls")])]),
    (nm "ToUnicode", .stream [] (asc "1 beginbfchar <42> <03b2> endbfchar "))]

/-- The codes of the sample: `A` from the base encoding, a Greek beta from the `ToUnicode` map, a sharp s from the differences, and one without a
character; with their widths. -/
theorem sampleSimple_run : (match buildFont sampleFontEnv 1 sampleSimpleSpec with
    | .ok f => some ([65, 66, 67, 129].map fun c => ((f.toUnichr c).toOption, (f.charWidth c).toOption))
    | .error _ => none) = some [(some [65], some (1/2)), (some [946], some (3/5)), (some [223], some 0), (none, some 0)] := by decide +kernel

/-- A standard font has the built-in widths, even if the dictionary has other ones. -/
theorem standard_widths_counterexample : (match buildFont sampleFontEnv 1 [(nm "BaseFont", .name (asc "Helvetica")), (nm "FirstChar", .int 65),
    (nm "Widths", .arr [.int 1000])] with
    | .ok f => some (f.charWidth 65).toOption
    | .error _ => none) = some (some (667 / 1000)) := by decide +kernel

/-- The default width 0 of a CID font is not respected: the width of the descriptor is used. -/
theorem cid_default_zero_counterexample : (match buildFont sampleFontEnv 1 [(nm "Subtype", .name (asc "CIDFontType2")), (nm "DW", .int 0),
    (nm "FontDescriptor", .dict [(nm "MissingWidth", .int 300)])] with
    | .ok f => some (f.charWidth 65).toOption
    | .error _ => none) = some (some (3 / 10)) := by decide +kernel

/-- A Type 3 font with the matrix `[0.5 0 0.25 0.5 0 0]`: the widths should be scaled by 0.5, but they are scaled by 0.75. -/
theorem type3_skew_counterexample : (match buildFont sampleFontEnv 1 [(nm "Subtype", .name (asc "Type3")), (nm "FirstChar", .int 65),
    (nm "Widths", .arr [.int 2]), (nm "FontBBox", .arr [.int 0, .int 0, .int 1, .int 1]),
    (nm "FontMatrix", .arr [.real 5 1, .int 0, .real 25 2, .real 5 1, .int 0, .int 0])] with
    | .ok f => some (f.charWidth 65).toOption
    | .error _ => none) = some (some (3 / 2)) := by decide +kernel

/-- A CID font for which `ToUnicode` has no entry: the character collection, which knows the code 1, is not asked. -/
theorem cid_no_fallback_counterexample : (match buildFont sampleFontEnv 1 [(nm "Subtype", .name (asc "CIDFontType0")),
      (nm "CIDSystemInfo", .dict [(nm "Registry", .str (asc "Adobe")), (nm "Ordering", .str (asc "Japan1"))]), (nm "ToUnicode", .stream [] [])],
    buildFont sampleFontEnv 1 [(nm "Subtype", .name (asc "CIDFontType0")),
      (nm "CIDSystemInfo", .dict [(nm "Registry", .str (asc "Adobe")), (nm "Ordering", .str (asc "Japan1"))])] with
    | .ok f, .ok f' => some ((f.toUnichr 1).toOption, (f'.toUnichr 1).toOption)
    | _, _ => none) = some (none, some [32]) := by decide +kernel

/-- A composite font whose `Encoding` is an embedded CMap cannot be built. -/
theorem embedded_cmap_counterexample : buildFont sampleFontEnv 2 [(nm "Subtype", .name (asc "Type0")), (nm "Encoding", .stream [] (asc "begincmap")),
    (nm "DescendantFonts", .arr [.dict [(nm "Subtype", .name (asc "CIDFontType0"))]])] |> fun r => (match r with
    | .error .attributeError => true
    | _ => false) = true := by decide +kernel

/-- The hypotheses of `simple_font_text` and `simple_font_widths` for the sample. -/
example : fontKind sampleSimpleSpec = .type1 ∧ dictGet sampleSimpleSpec (nm "Encoding") ≠ none ∧
    EncodingOf sampleFontEnv.R sampleSimpleSpec (ascii "WinAnsiEncoding") [.int 67, .name (asc "germandbls")] ∧
    DescriptorOf sampleFontEnv.R sampleFontEnv.metrics sampleSimpleSpec [] none := by
  refine ⟨rfl, by simp [sampleSimpleSpec, dictGet]; decide +kernel, .dict (d := [(nm "BaseEncoding", .name (asc "WinAnsiEncoding")),
    (nm "Differences", .arr [.int 67, .name (asc "germandbls")])]) (.given (o := .dict [(nm "BaseEncoding", .name (asc "WinAnsiEncoding")),
    (nm "Differences", .arr [.int 67, .name (asc "germandbls")])]) (by rfl) rfl) (.inr rfl) (.inr (.given (o := .arr [.int 67, .name (asc "germandbls")]) (by rfl) rfl)),
    .missing ?_ (.absent (by rfl))⟩
  rintro m ⟨n, s, h, -⟩
  have : dictGet sampleSimpleSpec (nm "BaseFont") = none := by rfl
  rw [this] at h
  cases h

end Pdf

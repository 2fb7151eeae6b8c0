import Verif.Model.Filters
import Verif.Spec.Filters
import Verif.Props.Ascii85
import Verif.Props.Lzw
import Verif.Props.RunLength
import Verif.Props.Png
import Verif.Props.Ccitt
/-! Facts about the filters of a stream. -/

namespace Pdf
open Spec Props

theorem byteBits_inj : ∀ a b : UInt8, byteBits a = byteBits b → a = b := by
  intro a b h
  rw [← bitsOfByte_eq, ← bitsOfByte_eq] at h
  have key : ∀ c : UInt8, packByte (bitsOfByte c) = c := by
    refine forall_byte ?_; decide +kernel
  rw [← key a, h, key b]

theorem flatMap_byteBits_inj (a b : Bytes) (h : a.flatMap byteBits = b.flatMap byteBits) : a = b := by
  induction a generalizing b with
  | nil =>
    have := congrArg List.length h
    rw [flatMap_byteBits_length, flatMap_byteBits_length] at this
    simp only [List.length_nil] at this
    exact (List.length_eq_zero_iff.mp (by omega)).symm
  | cons x a ih =>
    cases b with
    | nil =>
      have := congrArg List.length h
      rw [flatMap_byteBits_length, flatMap_byteBits_length] at this
      simp at this
    | cons y b =>
      rw [List.flatMap_cons, List.flatMap_cons] at h
      have := List.append_inj h rfl
      rw [byteBits_inj x y this.1, ih b this.2]

theorem filter_flate : ∀ s ∈ Filter.flate.names, isFilter (.name (asc s)) ["FlateDecode", "Fl"] = true := by decide +kernel

theorem filter_lzw : ∀ s ∈ Filter.lzw.names, isFilter (.name (asc s)) ["FlateDecode", "Fl"] = false ∧
    isFilter (.name (asc s)) ["LZWDecode", "LZW"] = true := by decide +kernel

theorem filter_a85 : ∀ s ∈ Filter.ascii85.names, isFilter (.name (asc s)) ["FlateDecode", "Fl"] = false ∧
    isFilter (.name (asc s)) ["LZWDecode", "LZW"] = false ∧ isFilter (.name (asc s)) ["ASCII85Decode", "A85"] = true := by decide +kernel

theorem filter_hex : ∀ s ∈ Filter.asciiHex.names, isFilter (.name (asc s)) ["FlateDecode", "Fl"] = false ∧
    isFilter (.name (asc s)) ["LZWDecode", "LZW"] = false ∧ isFilter (.name (asc s)) ["ASCII85Decode", "A85"] = false ∧
    isFilter (.name (asc s)) ["ASCIIHexDecode", "AHx"] = true := by decide +kernel

theorem filter_rl : ∀ s ∈ Filter.runLength.names, isFilter (.name (asc s)) ["FlateDecode", "Fl"] = false ∧
    isFilter (.name (asc s)) ["LZWDecode", "LZW"] = false ∧ isFilter (.name (asc s)) ["ASCII85Decode", "A85"] = false ∧
    isFilter (.name (asc s)) ["ASCIIHexDecode", "AHx"] = false ∧ isFilter (.name (asc s)) ["RunLengthDecode", "RL"] = true := by
  decide +kernel

theorem filter_fax : ∀ s ∈ Filter.ccittFax.names, isFilter (.name (asc s)) ["FlateDecode", "Fl"] = false ∧
    isFilter (.name (asc s)) ["LZWDecode", "LZW"] = false ∧ isFilter (.name (asc s)) ["ASCII85Decode", "A85"] = false ∧
    isFilter (.name (asc s)) ["ASCIIHexDecode", "AHx"] = false ∧ isFilter (.name (asc s)) ["RunLengthDecode", "RL"] = false ∧
    isFilter (.name (asc s)) ["CCITTFaxDecode", "CCF"] = true := by
  decide +kernel

theorem filter_dct : ∀ s ∈ Filter.dct.names, isFilter (.name (asc s)) ["FlateDecode", "Fl"] = false ∧
    isFilter (.name (asc s)) ["LZWDecode", "LZW"] = false ∧ isFilter (.name (asc s)) ["ASCII85Decode", "A85"] = false ∧
    isFilter (.name (asc s)) ["ASCIIHexDecode", "AHx"] = false ∧ isFilter (.name (asc s)) ["RunLengthDecode", "RL"] = false ∧
    isFilter (.name (asc s)) ["CCITTFaxDecode", "CCF"] = false ∧ isFilter (.name (asc s)) ["DCTDecode", "DCT"] = true := by
  decide +kernel

theorem applyFilter_coded (deflated : Bytes → Bytes → Prop) (inflate : Bytes → Option Bytes)
    (hz : ∀ plain coded, deflated plain coded → inflate coded = some plain) (f : Filter) (fo po : Obj) (params : List (Key × Obj))
    (plain coded : Bytes) (hf : FilterNamed fo f) (hp : ParamsAre po params) (h : Coded deflated params plain coded f) :
    applyFilter inflate fo po coded = .ok plain := by
  obtain ⟨s, hs, rfl⟩ := hf
  cases f with
  | flate => simp only [applyFilter, filter_flate s hs, if_true, hz _ _ h, Option.getD_some]
  | lzw =>
    obtain ⟨h1, h2⟩ := filter_lzw s hs
    obtain ⟨bits, pad, g1, g2, g3⟩ := h
    simp only [applyFilter, h1, h2, if_true, Bool.false_eq_true, if_false]
    exact lzw_roundtrip _ _ bits pad g1 g2 g3
  | ascii85 =>
    obtain ⟨h1, h2, h3⟩ := filter_a85 s hs
    obtain ⟨t, tail, g1, rfl⟩ := h
    simp only [applyFilter, h1, h2, h3, if_true, Bool.false_eq_true, if_false]
    exact ascii85_roundtrip _ _ _ g1
  | asciiHex =>
    obtain ⟨h1, h2, h3, h4⟩ := filter_hex s hs
    obtain ⟨t, e, g1, g2, rfl⟩ := h
    simp only [applyFilter, h1, h2, h3, h4, if_true, Bool.false_eq_true, if_false]
    rw [(asciihex_roundtrip_partial _ _ e g1 g2).1]
  | runLength =>
    obtain ⟨h1, h2, h3, h4, h5⟩ := filter_rl s hs
    obtain ⟨runs, g1, rfl, g2⟩ := h
    simp only [applyFilter, h1, h2, h3, h4, h5, if_true, Bool.false_eq_true, if_false]
    rcases g2 with rfl | ⟨tail, rfl⟩
    · exact (runlength_roundtrip runs g1 []).2
    · exact (runlength_roundtrip runs g1 tail).1
  | ccittFax =>
    obtain ⟨h1, h2, h3, h4, h5, h6⟩ := filter_fax s hs
    obtain ⟨w, align, black, rows, hw, hrows, hpar, hg, hu⟩ := h
    have hpo : paramsDict po = .ok params := by
      rcases hp with rfl | ⟨-, rfl⟩
      · rfl
      · have := hpar.k
        simp [dictGet] at this
    obtain ⟨out, e1, -, e2⟩ := ccitt_recovers_image w hw rows hrows align black params hpar coded hg
    simp only [applyFilter, h1, h2, h3, h4, h5, h6, if_true, Bool.false_eq_true, if_false, hpo, e1]
    rw [flatMap_byteBits_inj out plain (e2.trans hu.symm)]
  | dct =>
    obtain ⟨h1, h2, h3, h4, h5, h6, h7⟩ := filter_dct s hs
    have : coded = plain := h
    simp only [applyFilter, h1, h2, h3, h4, h5, h6, h7, if_true, Bool.false_eq_true, if_false, this]

theorem intParam_entry {R : Resolver} (hR : ∀ n : Int, R.resolve1 (.int n) = .ok (.int n)) {d name default n}
    (h : IntEntry R d name default n) : intParam R d name default = .ok n := by
  rw [intParam, Resolver.intValue]
  rcases h with ⟨h, rfl⟩ | ⟨o, h, h2⟩
  · rw [h]; simp [hR]
  · rw [h]; simp [h2]

theorem png_predictor_int (colors columns : Nat) (rows : List (PngFilter × Bytes)) (hs : PngRows colors rows)
    (hl : ∀ r ∈ rows, r.2.length = colors * columns) :
    applyPngPredictorInt colors columns 8 (pngEncode colors (List.replicate (colors * columns) 0) rows) = .ok (rows.flatMap (·.2)) := by
  have h := png_predictor_partial colors columns rows hs hl
  rw [applyPngPredictor, if_neg (by simp)] at h
  rw [applyPngPredictorInt, if_neg (by simp)]
  have e : (colors : Int) * columns * 8 / 8 = ((colors * columns : Nat) : Int) := by
    rw [Int.mul_ediv_cancel _ (by decide)]; push_cast; rfl
  have e2 : colors * columns * 8 / 8 = colors * columns := by omega
  rw [e2] at h
  simp only [e]
  rw [if_neg (by omega), if_neg (by omega), Int.toNat_natCast, Int.toNat_natCast]
  exact h

theorem applyPredictor_predicted {R : Resolver} (hR : ∀ n : Int, R.resolve1 (.int n) = .ok (.int n)) {po params plain coded}
    (hp : ParamsAre po params) (h : Predicted R params plain coded) : applyPredictor R po coded = .ok plain := by
  rcases hp with rfl | ⟨rfl, rfl⟩
  · rcases h with ⟨h, rfl⟩ | ⟨n, colors, columns, rows, hn, h0, h1, h2, h3, h4, h5, rfl, rfl⟩
    · rcases h with ⟨h, -⟩ | ⟨o, h, h2⟩
      · simp [applyPredictor, predictorParams, h]
      · simp [applyPredictor, predictorParams, h, Resolver.intValue, h2]
    · have hpred : predictorParams (.dict params) = .ok (some params) ∧
          R.intValue ((dictGet params (nm "Predictor")).getD .null) = .ok n := by
        rcases h0 with ⟨-, h⟩ | ⟨o, h, h'⟩
        · omega
        · exact ⟨by simp [predictorParams, h], by simp [h, Resolver.intValue, h']⟩
      simp only [applyPredictor, hpred.1, hpred.2]
      rw [if_neg (by omega), if_pos hn]
      simp only [pngStage, intParam_entry hR h1, intParam_entry hR h2, intParam_entry hR h3, bind, Except.bind]
      exact png_predictor_int colors columns rows h4 h5
  · rcases h with ⟨h, rfl⟩ | ⟨n, colors, columns, rows, hn, h0, h1, h2, h3, h4, h5, rfl, rfl⟩
    · simp [applyPredictor, predictorParams, Obj.truthy]
    · rcases h0 with ⟨-, h⟩ | ⟨o, h, h'⟩
      · omega
      · simp [dictGet] at h

theorem applyStages_chain {R : Resolver} (hR : ∀ n : Int, R.resolve1 (.int n) = .ok (.int n)) (deflated : Bytes → Bytes → Prop)
    (inflate : Bytes → Option Bytes) (hz : ∀ plain coded, deflated plain coded → inflate coded = some plain)
    {stages : List (Filter × List (Key × Obj))} {plain coded : Bytes} (h : Chain R deflated stages plain coded) (names ps : List Obj)
    (hn : List.Forall₂ FilterNamed names (stages.map (·.1))) (hp : List.Forall₂ ParamsAre ps (stages.map (·.2))) :
    applyStages R inflate (names.zip ps) coded = .ok plain := by
  induction h generalizing names ps with
  | nil =>
    simp only [List.map_nil, List.forall₂_nil_right_iff] at hn
    subst hn
    rfl
  | @cons f params rest plain mid mid' coded hc hpr hrest ih =>
    simp only [List.map_cons] at hn hp
    cases hn with
    | cons hf hn =>
      cases hp with
      | cons hpo hp =>
        simp only [List.zip_cons_cons, applyStages]
        rw [applyFilter_coded deflated inflate hz f _ _ params _ _ hf hpo hc]
        simp only
        rw [applyPredictor_predicted hR hpo hpr]
        exact ih _ _ hn hp

theorem resolveFilters_names (R : Resolver) (names : List Obj) (fs : List Filter) (h : List.Forall₂ FilterNamed names fs) :
    resolveFilters R names = .ok names := by
  induction h with
  | nil => rfl
  | cons hn _ ih =>
    obtain ⟨s, -, rfl⟩ := hn
    simp [resolveFilters, resolveFilter, ih]

theorem getAny_either {attrs : List (Key × Obj)} {a b : String} {o : Option Obj} (h : EitherEntry attrs a b o) :
    getAny attrs [b, a] = o := by
  rcases h with ⟨h1, h2⟩ | ⟨h1, h2, h3⟩
  · simp only [getAny, h2, h1]
    cases o <;> rfl
  · simp only [getAny, h3, h1]
    cases o <;> rfl

theorem getAny_parms {attrs : List (Key × Obj)} {o : Option Obj} (h : EitherEntry attrs "DecodeParms" "DP" o)
    (hf : dictGet attrs (nm "FDecodeParms") = none) : getAny attrs ["DP", "DecodeParms", "FDecodeParms"] = o := by
  rcases h with ⟨h1, h2⟩ | ⟨h1, h2, h3⟩
  · simp only [getAny, h2, h1, hf]
    cases o <;> rfl
  · simp only [getAny, h3, h1, hf]
    cases o <;> rfl

end Pdf

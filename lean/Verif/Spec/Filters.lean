import Verif.Spec.Ascii85
import Verif.Spec.Lzw
import Verif.Spec.RunLength
import Verif.Spec.Png
import Verif.Spec.Ccitt
import Verif.Model.Resolver
import Mathlib.Data.List.Forall2
/-! Encoded streams (PDF Reference 1.4, 3.2.7, 3.3 and 4.8.6), from the encoder's side. -/

namespace Pdf.Spec
open Pdf

/-- The filters. -/
inductive Filter where
  | asciiHex | ascii85 | lzw | flate | runLength | ccittFax | dct
deriving DecidableEq

/-- Their names: the long one and the abbreviation for inline images. -/
def Filter.names : Filter → List String
  | .asciiHex => ["ASCIIHexDecode", "AHx"]
  | .ascii85 => ["ASCII85Decode", "A85"]
  | .lzw => ["LZWDecode", "LZW"]
  | .flate => ["FlateDecode", "Fl"]
  | .runLength => ["RunLengthDecode", "RL"]
  | .ccittFax => ["CCITTFaxDecode", "CCF"]
  | .dct => ["DCTDecode", "DCT"]

/-- A flag in the parameters of a filter; it is off by default. -/
def FaxFlag (params : List (Key × Obj)) (name : String) (on : Bool) : Prop :=
  dictGet params (.name (asc name)) = some (.bool on) ∨ dictGet params (.name (asc name)) = none ∧ on = false

/-- The parameters describe Group 4 data of the given width. -/
structure FaxParams (params : List (Key × Obj)) (w : Nat) (align blackIs1 : Bool) : Prop where
  k : dictGet params (.name (asc "K")) = some (.int (-1))
  columns : dictGet params (.name (asc "Columns")) = some (.int w)
  align : FaxFlag params "EncodedByteAlign" align
  black : FaxFlag params "BlackIs1" blackIs1

/-- `coded` is an encoding of `plain` for the filter with the parameters. What deflate does is left open. A DCT stream is passed
through. -/
def Coded (deflated : Bytes → Bytes → Prop) (params : List (Key × Obj)) (plain coded : Bytes) : Filter → Prop
  | .asciiHex => ∃ s e, HexEnc plain s ∧ (e.all fun c => isSpace c || c == 62) = true ∧ coded = s ++ e
  | .ascii85 => ∃ s tail, A85 plain (s.filter a85Significant) ∧ coded = s ++ 126 :: tail
  | .lzw => ∃ bits pad, LzwBody plain bits ∧ coded.flatMap byteBits = bits ++ pad ∧ pad.length < 8
  | .flate => deflated plain coded
  | .runLength => ∃ runs : List Run, (∀ r ∈ runs, r.valid) ∧ plain = runs.flatMap Run.data ∧
      (coded = runs.flatMap Run.code ∨ ∃ tail, coded = runs.flatMap Run.code ++ 128 :: tail)
  | .ccittFax => ∃ w align blackIs1 rows, 0 < w ∧ (∀ r ∈ rows, r.length = w) ∧ FaxParams params w align blackIs1 ∧
      Group4 align w rows coded ∧ Unpacked blackIs1 w rows plain
  | .dct => coded = plain

/-- The value of an integer entry of a dictionary, which may be indirect; a default applies if there is none. -/
def IntEntry (R : Resolver) (d : List (Key × Obj)) (name : String) (default n : Int) : Prop :=
  dictGet d (nm name) = none ∧ n = default ∨ ∃ o, dictGet d (nm name) = some o ∧ R.resolve1 o = .ok (.int n)

/-- The rows that are decoded rightly (property C05): with one colour, any mix of None, Sub and Up; with more colours, None and Up,
the first row not being Up. -/
def PngRows (colors : Nat) (rows : List (PngFilter × Bytes)) : Prop :=
  if colors = 1 then ∀ r ∈ rows, r.1 = .none ∨ r.1 = .sub ∨ r.1 = .up
  else (∀ r ∈ rows, r.1 = .none ∨ r.1 = .up) ∧ ∀ r ∈ rows.head?, r.1 = .none

/-- `coded` comes from `plain` by the predictor of the parameters: none, or the PNG filters with eight bits per component. -/
def Predicted (R : Resolver) (params : List (Key × Obj)) (plain coded : Bytes) : Prop :=
  IntEntry R params "Predictor" 1 1 ∧ coded = plain ∨
  ∃ (n : Int) (colors columns : Nat) (rows : List (PngFilter × Bytes)), 10 ≤ n ∧ IntEntry R params "Predictor" 1 n ∧
    IntEntry R params "Colors" 1 colors ∧ IntEntry R params "Columns" 1 columns ∧ IntEntry R params "BitsPerComponent" 8 8 ∧
    PngRows colors rows ∧ (∀ r ∈ rows, r.2.length = colors * columns) ∧ plain = rows.flatMap (·.2) ∧
    coded = pngEncode colors (List.replicate (colors * columns) 0) rows

/-- Several filters: the first one is undone first. -/
inductive Chain (R : Resolver) (deflated : Bytes → Bytes → Prop) : List (Filter × List (Key × Obj)) → Bytes → Bytes → Prop
  | nil {d : Bytes} : Chain R deflated [] d d
  | cons {f : Filter} {params : List (Key × Obj)} {rest : List (Filter × List (Key × Obj))} {plain mid mid' coded : Bytes} :
      Coded deflated params mid' coded f → Predicted R params mid mid' → Chain R deflated rest plain mid →
      Chain R deflated ((f, params) :: rest) plain coded

/-- The entry of a dictionary that goes by one of two names; the other one is not used. -/
def EitherEntry (attrs : List (Key × Obj)) (a b : String) (o : Option Obj) : Prop :=
  dictGet attrs (nm a) = none ∧ dictGet attrs (nm b) = o ∨ dictGet attrs (nm a) = o ∧ o ≠ none ∧ dictGet attrs (nm b) = none

/-- The object is a name of the filter. -/
def FilterNamed (o : Obj) (f : Filter) : Prop := ∃ s ∈ f.names, o = .name (asc s)

/-- The parameters of one filter: a dictionary, or null for none. -/
def ParamsAre (o : Obj) (params : List (Key × Obj)) : Prop := o = .dict params ∨ o = .null ∧ params = []

/-- The filters of a stream with their parameters: `Filter` (in inline images `F`) is a name or an array of names, `DecodeParms` (or
`DP`) is left out, a dictionary for a single filter, or an array with an element for every filter. -/
def Stages (attrs : List (Key × Obj)) (stages : List (Filter × List (Key × Obj))) : Prop :=
  dictGet attrs (nm "FDecodeParms") = none ∧
  ∃ fo po, EitherEntry attrs "Filter" "F" fo ∧ EitherEntry attrs "DecodeParms" "DP" po ∧
    (fo = none ∧ stages = [] ∨
    ∃ names : List Obj, List.Forall₂ FilterNamed names (stages.map (·.1)) ∧ (fo = some (.arr names) ∨ ∃ n, names = [n] ∧ fo = some n) ∧
      (po = none ∧ (∀ s ∈ stages, s.2 = []) ∨ (∃ p, stages.map (·.2) = [p] ∧ po = some (.dict p)) ∨
        ∃ ps, po = some (.arr ps) ∧ List.Forall₂ ParamsAre ps (stages.map (·.2))))

end Pdf.Spec

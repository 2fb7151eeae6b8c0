import Verif.Model.XmlWriter
/-! XML 1.0 (a strict subset of it): which text stands for which sequence of tags and characters. -/

namespace Pdf.Spec

/-- What a reader reports: the start of an element with its attributes, its end, a character of text. -/
inductive XmlEvent where
  | start (tag : PyStr) (attrs : List (PyStr × PyStr))
  | stop (tag : PyStr)
  | char (c : Nat)
deriving DecidableEq

/-- The characters of a text as events. -/
def chars (s : PyStr) : List XmlEvent := s.map .char

/-- Letters of ASCII and the underscore start a name. -/
def nameStart (c : Nat) : Bool :=
  decide ('a'.toNat ≤ c ∧ c ≤ 'z'.toNat) || decide ('A'.toNat ≤ c ∧ c ≤ 'Z'.toNat) || decide (c = '_'.toNat)

/-- The characters of names: letters, digits, `_`, `-` and `.`. -/
def nameChar (c : Nat) : Bool :=
  nameStart c || decide ('0'.toNat ≤ c ∧ c ≤ '9'.toNat) || decide (c = '-'.toNat) || decide (c = '.'.toNat)

/-- A name. -/
def XmlName (n : PyStr) : Prop := ∃ c r, n = c :: r ∧ nameStart c = true ∧ ∀ x ∈ r, nameChar x = true

/-- A character of XML; the carriage return is left out because readers change it. -/
def xmlChar (c : Nat) : Bool :=
  decide (c = 9) || decide (c = 10) || (decide (0x20 ≤ c) && !decide (0xd800 ≤ c ∧ c ≤ 0xdfff) && !decide (c = 0xfffe) && !decide (c = 0xffff))

/-- The references that are predefined. -/
def xmlRefs : List (PyStr × Nat) :=
  [(pstr "&amp;", '&'.toNat), (pstr "&lt;", '<'.toNat), (pstr "&gt;", '>'.toNat), (pstr "&quot;", '"'.toNat)]

/-- The text between the quotes of an attribute: no tab or line feed, which readers change. -/
inductive XmlValue : PyStr → PyStr → Prop
  | nil : XmlValue [] []
  | plain {c t s} : xmlChar c = true → 0x20 ≤ c → c ≠ '<'.toNat → c ≠ '&'.toNat → c ≠ '"'.toNat → XmlValue t s → XmlValue (c :: t) (c :: s)
  | ref {r c t s} : (r, c) ∈ xmlRefs → XmlValue t s → XmlValue (r ++ t) (c :: s)

/-- The attributes of a tag, each after one or more spaces. -/
inductive XmlAttrs : PyStr → List (PyStr × PyStr) → Prop
  | nil : XmlAttrs [] []
  | cons {n : PyStr} {t v r l} (k : Nat) : XmlName n → XmlValue t v → XmlAttrs r l →
      XmlAttrs (List.replicate (k + 1) ' '.toNat ++ n ++ pstr "=\"" ++ t ++ pstr "\"" ++ r) ((n, v) :: l)

/-- The content of an element: text without `<`, `>` and `&`, references, and elements, whose end tag has the name of the start tag and
whose attributes have distinct names. -/
inductive XmlContent : PyStr → List XmlEvent → Prop
  | nil : XmlContent [] []
  | char {c t e} : xmlChar c = true → c ≠ '<'.toNat → c ≠ '>'.toNat → c ≠ '&'.toNat → XmlContent t e → XmlContent (c :: t) (.char c :: e)
  | ref {r c t e} : (r, c) ∈ xmlRefs → XmlContent t e → XmlContent (r ++ t) (.char c :: e)
  | element {tag at' attrs body e t e'} (k : Nat) : XmlName tag → XmlAttrs at' attrs → (attrs.map Prod.fst).Nodup → XmlContent body e →
      XmlContent t e' →
      XmlContent (pstr "<" ++ tag ++ at' ++ List.replicate k ' '.toNat ++ pstr ">" ++ body ++ pstr "</" ++ tag ++ pstr ">" ++ t)
        (.start tag attrs :: e ++ .stop tag :: e')
  | empty {tag at' attrs t e'} (k : Nat) : XmlName tag → XmlAttrs at' attrs → (attrs.map Prod.fst).Nodup → XmlContent t e' →
      XmlContent (pstr "<" ++ tag ++ at' ++ List.replicate k ' '.toNat ++ pstr "/>" ++ t) (.start tag attrs :: .stop tag :: e')

/-- The XML declaration: `VersionNum ::= '1.' [0-9]+`. -/
def XmlDecl (t : PyStr) : Prop :=
  ∃ digits encoding, digits ≠ [] ∧ (∀ c ∈ digits, '0'.toNat ≤ c ∧ c ≤ '9'.toNat) ∧
    (encoding = [] ∨ ∃ n, XmlName n ∧ encoding = pstr " encoding=\"" ++ n ++ pstr "\"") ∧
    t = pstr "<?xml version=\"1." ++ digits ++ pstr "\"" ++ encoding ++ pstr " ?>"

/-! ### The tree of calls -/

/-- Attributes given by the text of their values stand for these attributes. -/
inductive WritesAttrs : List (PyStr × PyStr) → List (PyStr × PyStr) → Prop
  | nil : WritesAttrs [] []
  | cons {n t v l l'} : XmlName n → XmlValue t v → WritesAttrs l l' → WritesAttrs ((n, t) :: l) ((n, v) :: l')

/-- `level` spaces of indentation. -/
def indentation (level : Nat) : List XmlEvent := chars (List.replicate level ' '.toNat)

/-- A line end. -/
def lineEnd : List XmlEvent := chars (pstr "\n")

/-- What calls at a level of nesting write: the elements, with indentation and line ends around them that are left out inside bare elements
and after elements without line end. -/
inductive WritesXml : Nat → XBody → List XmlEvent → Prop
  | nil {n} : WritesXml n .nil []
  | raw {n t e b e'} : XmlContent t e → WritesXml n b e' → WritesXml n (.cons (.text t true) b) (e ++ e')
  | text {n t e b e'} : XmlContent t e → WritesXml n b e' → WritesXml n (.cons (.text t false) b) (indentation n ++ e ++ lineEnd ++ e')
  | elm {n tag attrs as bare nol body e b e'} : XmlName tag → WritesAttrs attrs as → (as.map Prod.fst).Nodup →
      WritesXml (n + 1) body e → WritesXml n b e' →
      WritesXml n (.cons (.elm tag attrs bare nol body) b)
        (indentation n ++ [.start tag as] ++ (if bare then [] else lineEnd) ++ e ++ (if bare then [] else indentation n) ++ [.stop tag] ++
          (if nol then [] else lineEnd) ++ e')
  | single {n tag attrs as b e'} : XmlName tag → WritesAttrs attrs as → (as.map Prod.fst).Nodup → WritesXml n b e' →
      WritesXml n (.cons (.single tag attrs) b) (indentation n ++ [.start tag as, .stop tag] ++ lineEnd ++ e')

end Pdf.Spec

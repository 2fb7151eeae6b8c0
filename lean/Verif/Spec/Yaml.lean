import Verif.Model.YamlWriter
import Verif.Spec.Json
/-! YAML (1.2): which text stands for which value, for block mappings and sequences with plain scalars, and for flow collections on one
line. Texts are lists of code points. Scalars are given by their text: the schema that makes numbers, booleans and `null` of them is not
part of this. -/

namespace Pdf.Spec

/-- YAML values; scalars by their text. -/
inductive Yaml where
  | null
  | scalar (text : PyStr)
  | seq (l : List Yaml)
  | map (l : List (PyStr × Yaml))

/-- Printable characters without line breaks (YAML 1.2, 5.1 and 5.4). -/
def yamlChar (c : Nat) : Prop :=
  ' '.toNat ≤ c ∧ ¬ (0x7f ≤ c ∧ c ≤ 0x9f) ∧ c ≠ 0x2028 ∧ c ≠ 0x2029 ∧ c ≠ 0xfeff ∧ ¬ (0xd800 ≤ c ∧ c ≤ 0xdfff) ∧ c ≠ 0xfffe ∧ c ≠ 0xffff ∧
    c ≤ 0x10ffff

/-- The characters that cannot start a plain scalar. -/
def yamlIndicators : PyStr := cp ",[]{}#&*!|>'\"%@`"

/-- A plain scalar on one line (YAML 1.2, 7.3.3): no white space around it, no indicator at its start, no colon before a space or at its
end, and no comment in it. -/
structure Plain (s : PyStr) : Prop where
  chars : ∀ c ∈ s, yamlChar c
  start : ∃ c r, s = c :: r ∧ c ≠ ' '.toNat ∧ c ∉ yamlIndicators ∧ (c ∈ cp "-?:" → ∃ d r', r = d :: r' ∧ d ≠ ' '.toNat)
  last : s.getLast? ≠ some ' '.toNat ∧ s.getLast? ≠ some ':'.toNat
  colon : ¬ cp ": " <:+: s
  comment : ¬ cp " #" <:+: s

/-- A key of the kind that is used here: a word. -/
def YamlKey (k : PyStr) : Prop :=
  k ≠ [] ∧ ∀ c ∈ k, c ∈ cp "ABCDEFGHIJKLMNOPQRSTUVWXYZabcdefghijklmnopqrstuvwxyz0123456789_"

/-! ### Flow collections -/

/-- A plain scalar inside of a flow collection, of the kind that numbers are. -/
def FlowPlain (s : PyStr) : Prop := s ≠ [] ∧ ∀ c ∈ s, yamlChar c ∧ c ∉ cp " ,[]{}:#&*!|>'\"%@`?"

/-- The inside of a single-quoted scalar (without quotes in it). -/
def SingleQuoted (s : PyStr) : Prop := ∀ c ∈ s, yamlChar c ∧ c ≠ '\''.toNat

mutual
/-- `Flow t v`: the text `t` stands for `v` inside of a flow collection. -/
inductive Flow : PyStr → Yaml → Prop
  | plain {s} : FlowPlain s → Flow s (.scalar s)
  | quoted {s} : SingleQuoted s → Flow (cp "'" ++ s ++ cp "'") (.scalar s)
  | emptySeq : Flow (cp "[]") (.seq [])
  | seq {t l} : FlowItems t l → Flow (cp "[" ++ t ++ cp "]") (.seq l)
  | map {t l} : FlowMembers t l → Flow (cp "{" ++ t ++ cp "}") (.map l)
/-- One or more elements. -/
inductive FlowItems : PyStr → List Yaml → Prop
  | one {t v} : Flow t v → FlowItems t [v]
  | more {t v r l} : Flow t v → FlowItems r l → FlowItems (t ++ cp ", " ++ r) (v :: l)
/-- One or more members, with quoted keys. -/
inductive FlowMembers : PyStr → List (PyStr × Yaml) → Prop
  | one {k t v} : SingleQuoted k → Flow t v → FlowMembers (cp "'" ++ k ++ cp "': " ++ t) [(k, v)]
  | more {k t v r l} : SingleQuoted k → Flow t v → FlowMembers r l → FlowMembers (cp "'" ++ k ++ cp "': " ++ t ++ cp ", " ++ r) ((k, v) :: l)
end

/-- A flow sequence. -/
def FlowSeq (t : PyStr) (v : Yaml) : Prop := Flow t v ∧ ∃ l, v = .seq l

/-! ### Lines -/

/-- The lines of a text. -/
def textLines : PyStr → List PyStr
  | [] => [[]]
  | c :: r =>
    if c = '\n'.toNat then [] :: textLines r
    else match textLines r with
      | [] => [[c]]
      | l :: ls => (c :: l) :: ls

/-- The indentation of a line, and what follows it, without the spaces at the end. -/
def indented (l : PyStr) : Nat × PyStr :=
  let body := l.dropWhile fun c => c = ' '.toNat
  (l.length - body.length, (body.reverse.dropWhile fun c => c = ' '.toNat).reverse)

/-- The lines of a text that are not blank. -/
def yamlLines (t : PyStr) : List (Nat × PyStr) := ((textLines t).map indented).filter fun l => !l.2.isEmpty

/-! ### Block collections -/

mutual
/-- `Block n ls v`: the lines `ls`, of which the first is indented by `n`, stand for a mapping or sequence. -/
inductive Block : Nat → List (Nat × PyStr) → Yaml → Prop
  | map {n ls ms} : BlockMembers n ls ms → ms ≠ [] → Block n ls (.map ms)
  | seq {n ls vs} : BlockItems n ls vs → vs ≠ [] → Block n ls (.seq vs)
/-- The members of a mapping that is indented by `n`. -/
inductive BlockMembers : Nat → List (Nat × PyStr) → List (PyStr × Yaml) → Prop
  | nil {n} : BlockMembers n [] []
  | scalar {n k s rest ms} : YamlKey k → Plain s → BlockMembers n rest ms → BlockMembers n ((n, k ++ cp ": " ++ s) :: rest) ((k, .scalar s) :: ms)
  | flow {n k t v rest ms} : YamlKey k → FlowSeq t v → BlockMembers n rest ms → BlockMembers n ((n, k ++ cp ": " ++ t) :: rest) ((k, v) :: ms)
  | null {n k rest ms} : YamlKey k → BlockMembers n rest ms → BlockMembers n ((n, k ++ cp ":") :: rest) ((k, .null) :: ms)
  | block {n m k sub v rest ms} : YamlKey k → n < m → Block m sub v → BlockMembers n rest ms →
      BlockMembers n ((n, k ++ cp ":") :: (sub ++ rest)) ((k, v) :: ms)
/-- The elements of a sequence that is indented by `n`. -/
inductive BlockItems : Nat → List (Nat × PyStr) → List Yaml → Prop
  | nil {n} : BlockItems n [] []
  | scalar {n s rest vs} : Plain s → BlockItems n rest vs → BlockItems n ((n, cp "- " ++ s) :: rest) (.scalar s :: vs)
  | null {n rest vs} : BlockItems n rest vs → BlockItems n ((n, cp "-") :: rest) (.null :: vs)
  | block {n t sub v rest vs} : Block (n + 2) ((n + 2, t) :: sub) v → BlockItems n rest vs →
      BlockItems n ((n, cp "- " ++ t) :: (sub ++ rest)) (v :: vs)
end

/-- `YamlText t v`: the text `t` is a YAML document that stands for `v`. -/
def YamlText (t : PyStr) (v : Yaml) : Prop := Block 0 (yamlLines t) v

/-! ### What the calls of a writer stand for -/

/-- A mapping; without members nothing is written, which is null. -/
def asMap (ms : List (PyStr × Yaml)) : Yaml := if ms.isEmpty then .null else .map ms

/-- A sequence; without elements nothing is written, which is null. -/
def asSeq (vs : List Yaml) : Yaml := if vs.isEmpty then .null else .seq vs

/-- Where the writer of an object was made. -/
inductive YPlace where
  | root
  | object
  | array
deriving DecidableEq

/-- `YamlScalar t v`: the text of a scalar, written after a key, stands for `v`. -/
inductive YamlScalar : PyStr → Yaml → Prop
  | plain {s} : Plain s → YamlScalar s (.scalar s)
  | flow {t v} : FlowSeq t v → YamlScalar t v
  | empty : YamlScalar [] .null

mutual
/-- The members written by the calls on an object writer with the keys used so far. The first call is not `object` in the writer of a
nested object, and not `array` in the writer of an object in an array. -/
inductive WritesMembers : YPlace → List PyStr → YObj → List (PyStr × Yaml) → Prop
  | nil {p keys} : WritesMembers p keys .nil []
  | scalar {p keys k t v rest ms} : k ∉ keys → YamlKey k → YamlScalar t v → WritesMembers p (k :: keys) rest ms →
      WritesMembers p keys (.write k t rest) ((k, v) :: ms)
  | again {p keys k t rest ms} : k ∈ keys → WritesMembers p keys rest ms → WritesMembers p keys (.write k t rest) ms
  | object {p keys k body rest ms' ms} : k ∉ keys → YamlKey k → (keys = [] → p ≠ .object) → WritesMembers .object [] body ms' →
      WritesMembers p (k :: keys) rest ms → WritesMembers p keys (.object k body rest) ((k, asMap ms') :: ms)
  | array {p keys k body rest vs ms} : k ∉ keys → YamlKey k → (keys = [] → p ≠ .array) → WritesItems body vs →
      WritesMembers p (k :: keys) rest ms → WritesMembers p keys (.array k body rest) ((k, asSeq vs) :: ms)
/-- The elements written by the calls on an array writer. -/
inductive WritesItems : YArr → List Yaml → Prop
  | nil : WritesItems .nil []
  | scalar {t rest vs} : Plain t → WritesItems rest vs → WritesItems (.write t rest) (.scalar t :: vs)
  | empty {rest vs} : WritesItems rest vs → WritesItems (.write [] rest) (.null :: vs)
  | object {body rest ms vs} : WritesMembers .array [] body ms → WritesItems rest vs → WritesItems (.object body rest) (asMap ms :: vs)
end

end Pdf.Spec

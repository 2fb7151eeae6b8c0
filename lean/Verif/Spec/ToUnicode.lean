import Verif.Spec.Object
import Verif.Spec.Text
import Verif.Spec.Png
/-! Specification of `ToUnicode` maps (C46): Adobe technical note 5411, ISO 32000-1, 9.10.3. -/

namespace Pdf.Spec
open Pdf (Bytes Tok Obj)

/-- The number `n` in `k` bytes, most significant byte first. -/
def toBe : (k n : Nat) → Bytes
  | 0, _ => []
  | k + 1, n => UInt8.ofNat (n / 256 ^ k) :: toBe k (n % 256 ^ k)

/-- An entry: one code; a range of codes with the text for the first one; a range of codes with a text for each. The texts are
strings of bytes. -/
inductive BfEntry where
  | char (src dst : Bytes)
  | range (lo hi dst : Bytes)
  | list (lo hi : Bytes) (dsts : List Bytes)

/-- The text for the code number `i` of a range whose first text is `dst`: the number in its last four bytes goes up by `i`. -/
def advance (dst : Bytes) (i : Nat) : Bytes :=
  dst.take (dst.length - 4) ++ toBe (min 4 dst.length) (beValue (dst.drop (dst.length - 4)) + i)

/-- The entry gives this code this text. -/
def BfEntry.Says : BfEntry → Nat → Bytes → Prop
  | .char src dst, code, text => code = beValue src ∧ text = dst
  | .range lo hi dst, code, text => ∃ i, code = beValue lo + i ∧ code ≤ beValue hi ∧ text = advance dst i
  | .list lo hi dsts, code, text => ∃ i, code = beValue lo + i ∧ code ≤ beValue hi ∧ dsts[i]? = some text

/-- The sizes that make sense: codes of one to four bytes; a range whose texts do not overflow; as many texts as codes. -/
def BfEntry.Sane : BfEntry → Prop
  | .char src _ => 1 ≤ src.length ∧ src.length ≤ 4
  | .range lo hi dst => 1 ≤ lo.length ∧ lo.length ≤ 4 ∧ hi.length = lo.length ∧ dst ≠ [] ∧
      beValue (dst.drop (dst.length - 4)) + (beValue hi - beValue lo) < 256 ^ min 4 dst.length
  | .list lo hi dsts => 1 ≤ lo.length ∧ lo.length ≤ 4 ∧ hi.length = lo.length ∧ beValue hi + 1 ≤ beValue lo + dsts.length

/-- What a sequence of entries says about a code: the last entry for it counts. -/
inductive TextOfCode (es : List BfEntry) (code : Nat) : Option Bytes → Prop
  | given {before e after text} : es = before ++ e :: after → e.Says code text → (∀ e' ∈ after, ∀ t, ¬ e'.Says code t) →
      TextOfCode es code (some text)
  | missing : (∀ e ∈ es, ∀ t, ¬ e.Says code t) → TextOfCode es code none

/-- The words with a meaning in a character map. -/
def cmapWords : List String := ["begincmap", "endcmap", "def", "usecmap", "begincodespacerange", "endcodespacerange", "begincidrange",
  "endcidrange", "begincidchar", "endcidchar", "beginbfrange", "endbfrange", "beginbfchar", "endbfchar", "beginnotdefrange", "endnotdefrange"]

/-- Operands, and operators without a meaning. -/
def cmapDialect : Dialect where
  refs := false
  nulls := false
  plain n := n ∉ brackets ∧ ∀ w ∈ cmapWords, n ≠ ascii w

/-- The inside of a `bfchar` section. -/
inductive BfChars : List Tok → List BfEntry → Prop
  | nil : BfChars [] []
  | cons {src dst ts es} : BfChars ts es → BfChars (.str src :: .str dst :: ts) (.char src dst :: es)

/-- The inside of a `bfrange` section. -/
inductive BfRanges : List Tok → List BfEntry → Prop
  | nil : BfRanges [] []
  | range {lo hi dst ts es} : BfRanges ts es → BfRanges (.str lo :: .str hi :: .str dst :: ts) (.range lo hi dst :: es)
  | list {lo hi dsts ts es} : BfRanges ts es →
      BfRanges (.str lo :: .str hi :: .kw [91] :: dsts.map Tok.str ++ .kw [93] :: ts) (.list lo hi dsts :: es)

/-- The program of a character map with its entries. Between the sections there are definitions `key value def`, other operands
and operators, and sections of other kinds. After `endcmap` only operands and operators without brackets follow. -/
inductive CMapText : List Tok → List BfEntry → Prop
  | nil : CMapText [] []
  | thing {t o ts es} : Writes cmapDialect t o → CMapText ts es → CMapText (t ++ ts) es
  | definition {kt k vt v ts es} : Writes cmapDialect kt k → keyOf k ≠ none → Writes cmapDialect vt v → CMapText ts es →
      CMapText (kt ++ vt ++ .kw (ascii "def") :: ts) es
  | other {w : String} {ts es} : w ∈ ["begincmap", "begincodespacerange", "endcodespacerange", "begincidrange", "endcidrange", "begincidchar",
      "endcidchar", "beginnotdefrange", "endnotdefrange"] → CMapText ts es → CMapText (.kw (ascii w) :: ts) es
  | bfchar {mid es₁ ts es} : BfChars mid es₁ → CMapText ts es →
      CMapText (.kw (ascii "beginbfchar") :: mid ++ .kw (ascii "endbfchar") :: ts) (es₁ ++ es)
  | bfrange {mid es₁ ts es} : BfRanges mid es₁ → CMapText ts es →
      CMapText (.kw (ascii "beginbfrange") :: mid ++ .kw (ascii "endbfrange") :: ts) (es₁ ++ es)
  | final {ts} : (∀ n, Tok.kw n ∈ ts → n ∉ brackets ∧ n ≠ ascii "begincmap") → CMapText (.kw (ascii "endcmap") :: ts) []

end Pdf.Spec

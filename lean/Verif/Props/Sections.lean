import Verif.Props.Xref
import Verif.Props.Document
import Verif.Model.XrefStream
/-! C23, C24 cross-reference sections in a file; C68 the chain of sections. -/

namespace Pdf
open Spec

variable {σ : Type}

/-- A cross-reference table at offset `p` of the file: the line `xref`, subsections, and from offset `q` on the word `trailer` at the
start of a line, a dictionary in any spelling and the word `startxref`. -/
structure TableAt (data : Bytes) (p : Nat) (es : List (Nat × Option (Nat × Nat))) (d : List (Key × Obj)) (l0 w : Bytes) (ls : List Bytes) (q : Nat)
    (tl more pre rest : Bytes) (pts : List (Nat × Tok)) (ts : List Tok) : Prop where
  word : data.drop p = [120, 114, 101, 102] ++ (l0 ++ w)
  blank : Blank l0
  line : IsLine l0 w
  lines : LinesAt data (p + 4 + l0.length) ls q
  table : Table ls es
  trailerAt : data.drop q = tl ++ more
  trailerLine : IsLine tl more
  trailer : [116, 114, 97, 105, 108, 101, 114] <+: tl
  dictAt : data.drop q = pre ++ rest
  text : Text q pts pre rest
  toks : pts.map Prod.snd = .kw [116, 114, 97, 105, 108, 101, 114] :: ts ++ [.kw [115, 116, 97, 114, 116, 120, 114, 101, 102]]
  dict : Writes fileDialect ts (.dict d)

/-- What the entries of a table say about object `i`. -/
def tablePos (es : List (Nat × Option (Nat × Nat))) (i : Int) : Except PyErr XPos :=
  match lastUsed i es with
  | some (p, g) => .ok (none, (p : Int), (g : Int))
  | none => .error .keyError

theorem Spec.Spells.pos {e t k} (h : Spells e t k) : 0 < e.length := by
  cases h with
  | int _ h _ => have := List.length_pos_iff.2 h; simp; omega
  | _ => simp; try omega

theorem Spec.IsLine.pos {l w} (h : IsLine l w) : 0 < l.length := by
  cases h <;> simp

theorem text_length {p pts a b} (h : Text p pts a b) : pts.length ≤ a.length := by
  induction h with
  | nil => simp
  | white _ _ ih => simp; omega
  | comment _ _ _ ih => simp; omega
  | tok hs _ _ ih => have := hs.pos; simp; omega

theorem linesAt_length {data p ls q} (h : LinesAt data p ls q) : ls.length ≤ (data.drop p).length := by
  induction h with
  | nil => simp
  | cons h1 h2 _ ih =>
    rw [← List.drop_drop, h1, List.drop_left] at ih
    rw [h1]
    have := h2.pos
    simp; omega

/-- The word `xref`. -/
theorem xref_token (p : Nat) (l0 w : Bytes) (hb : Blank l0) (hl : IsLine l0 w) :
    ∃ ts e, lexRun {} p ([120, 114, 101, 102] ++ (l0 ++ w)) = ((p, .kw [120, 114, 101, 102]) :: ts, e) := by
  have hs : Spells [120, 114, 101, 102] (.kw [120, 114, 101, 102]) .delimiter :=
    Spells.keyword (c := 120) (cs := [114, 101, 102]) (by decide) (by decide) (by decide) (by decide)
  have hk : Ends.ok .delimiter ([] ++ (l0 ++ w)) := by
    cases l0 with
    | nil => exact absurd hl.pos (by simp)
    | cons c cs =>
      have hc := hb c (by simp)
      exact ⟨c, cs ++ w, rfl, Or.inl hc, by rintro rfl; exact absurd hc (by decide)⟩
  have := run_text (p := p) (Text.tok hs hk .nil)
  rw [List.append_nil] at this
  rw [this]
  exact ⟨_, _, rfl⟩

/-- C23. A cross-reference table anywhere in a file: the section has exactly the in-use entries of the table - if an object has
several, the last one - and the trailer dictionary. -/
theorem table_section (env : Env σ) (henv : env.Direct) (decode) {b : Nat} (hb : 0 < b) {data : Bytes} {p : Nat} {es d l0 w ls q tl more pre rest pts ts}
    (h : TableAt data p es d l0 w ls q tl more pre rest pts ts) (fuel : Nat) (hf : data.length + 2 ≤ fuel) (s : σ) :
    ∃ x, readSection env decode b fuel data p s = (.ok x, s) ∧ x.trailer = d ∧ ∀ i, x.getPos i = tablePos es i := by
  obtain ⟨ts0, e0, h0⟩ := xref_token p l0 w h.blank h.line
  obtain ⟨ps1, g1, g2⟩ := (ready_seek data p).keyword hb (c := 120) (cs := [114, 101, 102]) (by rw [h.word]; exact h0) (by decide)
  have hd1 : data.drop (p + 4) = l0 ++ w := by rw [← List.drop_drop, h.word]; rfl
  obtain ⟨ps2, g3, g4⟩ := g2.line hb (l := l0) (w := w) hd1 h.line
  unfold readSection
  rw [if_neg (by omega), Int.toNat_natCast, g1]
  dsimp only
  rw [if_neg (by decide), if_pos (by decide), g3]
  dsimp only
  unfold loadXref
  rw [loadTable_ok hb data h.table tl more h.lines h.trailerAt h.trailerLine h.trailer g4 [] _ (by
    rw [g4.unread]; exact Nat.lt_succ_of_le (linesAt_length h.lines))]
  dsimp only
  obtain ⟨ps3, g5⟩ := loadTrailer_ok env henv hb data q pre rest pts ts d fuel s h.dictAt h.text h.toks h.dict (by
    have h1 := text_length h.text
    have h2 := congrArg List.length h.toks
    have h3 := congrArg List.length h.dictAt
    simp at h2 h3
    omega)
  rw [g4.data, g5]
  dsimp only
  refine ⟨_, rfl, ?_, fun i => ?_⟩
  · show dictUpdate [] d = d
    rw [dictUpdate_nodup _ _ (by simpa using writes_dict_nodup h.dict)]
    rfl
  · show XTable.getPos _ i = _
    unfold XTable.getPos tablePos
    rw [addEntries_get]
    cases lastUsed i es with
    | none => rfl
    | some x => rfl

end Pdf

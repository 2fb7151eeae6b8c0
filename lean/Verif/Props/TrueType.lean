import Verif.Spec.TrueType
import Verif.Props.Xref
/-! C103: the table directory of TrueType files. -/

namespace Pdf
open Spec

theorem ttNumber_be (s : Bytes) : ttNumber s = beValue s := rfl

/-- The key of the directory for a tag, and the value. -/
theorem ttEntries_entry {t : TtTable} (h : t.Ok) (n : Nat) (rest : Bytes) (d : List (TtKey × (Nat × Nat))) :
    ttEntries (n + 1) (t.bytes ++ rest) d = ttEntries n rest (dictSet d (.bytes t.tag) (beValue t.offset, beValue t.length)) := by
  obtain ⟨h1, h2, h3, h4⟩ := h
  have hl : t.bytes.length = 16 := by simp [TtTable.bytes, h1, h2, h3, h4]
  have e0 : (t.bytes ++ rest).take 16 = t.bytes := by rw [← hl, List.take_left]
  have e1 : (t.bytes ++ rest).drop 16 = rest := by rw [← hl, List.drop_left]
  have e2 : t.bytes.take 4 = t.tag := by
    rw [TtTable.bytes, List.append_assoc, List.append_assoc, ← h1, List.take_left]
  have e3 : t.bytes.drop 8 = t.offset ++ t.length := by
    rw [TtTable.bytes, List.append_assoc, show 8 = (t.tag ++ t.checksum).length by simp [h1, h2], List.drop_left]
  have e4 : t.bytes.drop 12 = t.length := by
    rw [TtTable.bytes, show 12 = (t.tag ++ t.checksum ++ t.offset).length by simp [h1, h2, h3], List.drop_left]
  have e5 : (t.offset ++ t.length).take 4 = t.offset := by rw [← h3, List.take_left]
  have e6 : t.length.take 4 = t.length := by rw [← h4, List.take_length]
  rw [ttEntries]
  rw [e0, if_pos hl, e1, e2, e3, e4, e5, e6]
  rfl

theorem ttEntries_all {ts : List TtTable} (h : ∀ t ∈ ts, t.Ok) (n : Nat) (rest : Bytes) (d : List (TtKey × (Nat × Nat))) :
    ttEntries (ts.length + n) (ts.flatMap TtTable.bytes ++ rest) d =
      ttEntries n rest (ts.foldl (fun d t => dictSet d (.bytes t.tag) (beValue t.offset, beValue t.length)) d) := by
  induction ts generalizing d with
  | nil => simp
  | cons t ts ih =>
    rw [List.flatMap_cons, List.append_assoc, List.length_cons, show ts.length + 1 + n = ts.length + n + 1 by omega, ttEntries_entry (h t (by simp)),
      ih (fun t ht => h t (by simp [ht])), List.foldl_cons]

theorem ttEntries_cut {n : Nat} {rest : Bytes} (h : rest.length < 16 ∨ n = 0) (d : List (TtKey × (Nat × Nat))) : ttEntries n rest d = d := by
  cases n with
  | zero => rfl
  | succ n =>
    rw [ttEntries]
    rw [if_neg]
    rw [List.length_take]
    omega

theorem tables_get (ts : List TtTable) (d : List (TtKey × (Nat × Nat))) (tag : Bytes) :
    dictGet (ts.foldl (fun d t => dictSet d (.bytes t.tag) (beValue t.offset, beValue t.length)) d) (.bytes tag) =
      (tableAt ts tag <|> dictGet d (.bytes tag)) := by
  induction ts generalizing d with
  | nil => rfl
  | cons t ts ih =>
    rw [List.foldl_cons, ih, dictGet_dictSet]
    unfold tableAt
    rw [List.reverse_cons, List.find?_append]
    cases h : ts.reverse.find? fun t => decide (t.tag = tag) with
    | some x => rfl
    | none =>
      by_cases he : t.tag = tag
      · simp [he]
      · simp [he]

/-- **C103.** The tables of a file are those of the directory, up to the place where the file is cut. -/
theorem tables_read {header rest : Bytes} {ts : List TtTable} {missing : Nat} (hh : TtHeader (ts.length + missing) header) (h : ∀ t ∈ ts, t.Ok)
    (hm : rest.length < 16 ∨ missing = 0) (tag : Bytes) :
    dictGet (ttTables (header ++ ts.flatMap TtTable.bytes ++ rest)) (.bytes tag) = tableAt ts tag := by
  obtain ⟨version, n, search, rfl, h1, h2, h3, h4⟩ := hh.parts
  have e1 : (version ++ n ++ search ++ ts.flatMap TtTable.bytes ++ rest).drop 4 = n ++ search ++ (ts.flatMap TtTable.bytes ++ rest) := by
    simp only [List.append_assoc]; rw [← h1, List.drop_left]
  have e2 : (n ++ search ++ (ts.flatMap TtTable.bytes ++ rest)).take 8 = n ++ search := by
    rw [show 8 = (n ++ search).length by simp [h2, h4], List.take_left]
  have e3 : (version ++ n ++ search ++ ts.flatMap TtTable.bytes ++ rest).drop 12 = ts.flatMap TtTable.bytes ++ rest := by
    rw [List.append_assoc, show 12 = (version ++ n ++ search).length by simp [h1, h2, h4], List.drop_left]
  have e4 : (n ++ search).take 2 = n := by rw [← h2, List.take_left]
  unfold ttTables
  dsimp only
  rw [e1, e2, e3, if_pos (by simp [h2, h4]), e4, ttNumber_be, h3, ttEntries_all h, ttEntries_cut hm, tables_get]
  cases tableAt ts tag <;> rfl

/-- **C103.** A file that is too short for the header has no tables. -/
theorem tables_short {data : Bytes} (h : data.length < 12) : ttTables data = [] := by
  unfold ttTables
  dsimp only
  rw [if_neg]
  simp only [List.length_take, List.length_drop]
  omega

theorem ttEntries_str (n : Nat) (data : Bytes) (d : List (TtKey × (Nat × Nat))) (s : String) : dictGet (ttEntries n data d) (.str s) = dictGet d (.str s) := by
  induction n generalizing data d with
  | zero => rfl
  | succ n ih =>
    rw [ttEntries]
    split
    · rw [ih, dictGet_dictSet, if_neg (by simp)]
    · rfl

/-- **C103**, refuted: no file gives a map from glyphs to characters, since the tags are `bytes` and a `str` is looked up. -/
theorem unicode_map_never (read : Nat → Except PyErr CodeMap) (data : Bytes) : ttUnicodeMap read (ttTables data) = .error .cmapNotFound := by
  have : dictGet (ttTables data) (.str "cmap") = none := by
    unfold ttTables
    dsimp only
    split
    · rw [ttEntries_str]; rfl
    · rfl
  unfold ttUnicodeMap
  rw [this]

/-- A directory with the table `cmap` at 28. -/
def sampleTt : List TtTable := [⟨[99, 109, 97, 112], [0, 0, 0, 0], [0, 0, 0, 28], [0, 0, 0, 4]⟩]

/-- A file as in `tables_read`. -/
theorem sampleTt_read : dictGet (ttTables ([0, 1, 0, 0, 0, 1, 0, 16, 0, 0, 0, 0] ++ sampleTt.flatMap TtTable.bytes ++ [0, 0, 0, 0])) (.bytes [99, 109, 97, 112]) =
    some (28, 4) := by
  have hh : TtHeader (sampleTt.length + 0) [0, 1, 0, 0, 0, 1, 0, 16, 0, 0, 0, 0] := ⟨[0, 1, 0, 0], [0, 1], [0, 16, 0, 0, 0, 0], rfl, rfl, rfl, rfl, rfl⟩
  have hk : ∀ t ∈ sampleTt, t.Ok := by
    intro t ht
    obtain rfl := List.mem_singleton.1 ht
    exact ⟨rfl, rfl, rfl, rfl⟩
  rw [tables_read hh hk (.inr rfl)]
  decide

/-- **C103**, refuted: the file has the table, but not for `create_unicode_map`. -/
theorem unicode_map_counterexample : tableAt sampleTt [99, 109, 97, 112] = some (28, 4) ∧
    ttUnicodeMap (fun _ => .ok []) (ttTables ([0, 1, 0, 0, 0, 1, 0, 16, 0, 0, 0, 0] ++ sampleTt.flatMap TtTable.bytes ++ [0, 0, 0, 0])) = .error .cmapNotFound :=
  ⟨by decide, unicode_map_never _ _⟩

end Pdf

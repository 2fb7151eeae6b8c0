import Verif.Spec.Updates
import Verif.Props.SameObjects
import Verif.Props.PackedWrite
/-! C115: incremental updates. -/

namespace Pdf
open Spec

/-! ### The table of an update -/

/-- What the table of an update says. -/
def changeEntries : (p : Nat) → List (Nat × Option Obj) → List (Nat × Option (Nat × Nat))
  | _, [] => []
  | p, (i, some o) :: cs => (i, some (p, 0)) :: changeEntries (p + (writeObj i o).length) cs
  | p, (i, none) :: cs => (i, none) :: changeEntries p cs

/-- The objects of an update with their numbers. -/
def changeObjs (cs : List (Nat × Option Obj)) : List (Int × Obj) := cs.filterMap fun x => x.2.map fun o => ((x.1 : Int), o)

theorem one_line (i : Nat) {l : Bytes} {e : Option (Nat × Nat)} (h : EntryLine l e) {ls es} (ht : Table ls es) :
    Table ((natDigits i ++ asc " 1\n") :: l :: ls) ((i, e) :: es) := by
  obtain ⟨h1, h2, h3⟩ := natDigits_spec i
  have := Table.section (l := natDigits i ++ asc " 1\n") (s := natDigits i) (n := [49]) (els := [l]) (ents := [(i, e)])
    (by
      rw [show natDigits i ++ asc " 1\n" = (natDigits i ++ 32 :: [49]) ++ [10] by rw [List.append_assoc]; rfl]
      refine trims_end [10] (digits_head h2 h1 _) ?_ (by decide)
      rw [show natDigits i ++ 32 :: [49] = (natDigits i ++ [32]) ++ [49] by simp, List.getLast?_concat]
      decide) ⟨h1, h2⟩ ⟨by decide, by decide⟩ (by rw [h3]; exact .cons h .nil) rfl ht
  exact this

theorem table_changes (p : Nat) (cs : List (Nat × Option Obj)) : Table (changeLines p cs) (changeEntries p cs) := by
  induction cs generalizing p with
  | nil => exact .nil
  | cons x cs ih =>
    obtain ⟨i, c⟩ := x
    cases c with
    | some o => exact one_line i (entry_line p) (ih _)
    | none => exact one_line i (.free (p := asc "0000000000") (g := asc "00001") (trims_end (t := asc "0000000000 00001 f") [32, 10] (by decide) (by decide) (by decide))
        ⟨by decide, by decide⟩ ⟨by decide, by decide⟩) (ih _)

theorem dull_number (i : Nat) : DullLine (natDigits i ++ asc " 1\n") := by
  have h := (natDigits_spec i).2.1
  obtain ⟨h1, h2⟩ := digits_dull h
  refine ⟨natDigits i ++ asc " 1", noEol_and (noEol_digits h) (by unfold NoEol; decide), by rw [List.append_assoc]; rfl, ?_, ?_⟩
  · rw [List.mem_append]; rintro (h | h)
    · exact h1 h
    · revert h; decide
  · rw [List.mem_append]; rintro (h | h)
    · exact h2 h
    · revert h; decide

theorem dull_changes (p : Nat) (cs : List (Nat × Option Obj)) : ∀ l ∈ changeLines p cs, DullLine l := by
  induction cs generalizing p with
  | nil => intro l hl; cases hl
  | cons x cs ih =>
    obtain ⟨i, c⟩ := x
    intro l hl
    cases c with
    | some o =>
      rcases List.mem_cons.1 hl with rfl | hl
      · exact dull_number i
      rcases List.mem_cons.1 hl with rfl | hl
      · exact dull_entry p
      · exact ih _ l hl
    | none =>
      rcases List.mem_cons.1 hl with rfl | hl
      · exact dull_number i
      rcases List.mem_cons.1 hl with rfl | hl
      · exact ⟨asc "0000000000 00001 f ", by unfold NoEol; decide, by decide, by decide, by decide⟩
      · exact ih _ l hl

theorem changes_absent (p : Nat) (cs : List (Nat × Option Obj)) (j : Int) (h : ∀ x ∈ cs, (x.1 : Int) ≠ j) : lastUsed j (changeEntries p cs) = none := by
  induction cs generalizing p with
  | nil => rfl
  | cons x cs ih =>
    obtain ⟨i, c⟩ := x
    have hi : (i : Int) ≠ j := h (i, c) (by simp)
    cases c with
    | some o => simp only [changeEntries, lastUsed, ih _ fun x hx => h x (by simp [hx]), if_neg hi]
    | none => simp only [changeEntries, lastUsed, ih _ fun x hx => h x (by simp [hx]), if_neg hi]

theorem changes_find (p : Nat) (cs : List (Nat × Option Obj)) (hn : (cs.map Prod.fst).Nodup) (j : Int) :
    (dictGet (changeObjs cs) j = none → lastUsed j (changeEntries p cs) = none) ∧
    (∀ o, dictGet (changeObjs cs) j = some o → ∃ a b, ∃ i : Nat, cs = a ++ (i, some o) :: b ∧ j = ↑i ∧ lastUsed j (changeEntries p cs) = some (p + (changedObjs a).length, 0)) := by
  induction cs generalizing p with
  | nil => exact ⟨fun _ => rfl, fun o h => by cases h⟩
  | cons x cs ih =>
    obtain ⟨i, c⟩ := x
    rw [List.map_cons, List.nodup_cons] at hn
    cases c with
    | none =>
      obtain ⟨h1, h2⟩ := ih p hn.2
      refine ⟨fun h => ?_, fun o h => ?_⟩
      · simp only [changeEntries, lastUsed, h1 h, ite_self]
      · obtain ⟨a, b, i', rfl, rfl, e⟩ := h2 o h
        exact ⟨(i, none) :: a, b, i', rfl, rfl, by simp only [changeEntries, lastUsed, e]; rfl⟩
    | some o =>
      obtain ⟨h1, h2⟩ := ih (p + (writeObj i o).length) hn.2
      have e : changeObjs ((i, some o) :: cs) = ((i : Int), o) :: changeObjs cs := rfl
      rw [e, dictGet]
      by_cases hi : (i : Int) = j
      · rw [if_pos hi]
        refine ⟨(nomatch ·), fun o' h => ?_⟩
        cases h
        have := changes_absent (p + (writeObj i o).length) cs j (by
          rintro x hx rfl
          exact hn.1 (List.mem_map.2 ⟨x, hx, by omega⟩))
        exact ⟨[], cs, i, rfl, hi.symm, by simp only [changeEntries, lastUsed, this, if_pos hi, changedObjs]; rfl⟩
      · rw [if_neg hi]
        refine ⟨fun h => ?_, fun o' h => ?_⟩
        · simp only [changeEntries, lastUsed, h1 h, if_neg hi]
        · obtain ⟨a, b, i', rfl, rfl, e⟩ := h2 o' h
          refine ⟨(i, some o) :: a, b, i', rfl, rfl, ?_⟩
          simp only [changeEntries, lastUsed, e, changedObjs, List.length_append, Nat.add_assoc]

theorem changedObjs_append (a b : List (Nat × Option Obj)) : changedObjs (a ++ b) = changedObjs a ++ changedObjs b := by
  induction a with
  | nil => rfl
  | cons x a ih =>
    obtain ⟨i, c⟩ := x
    cases c with
    | none => exact ih
    | some o => simp only [List.cons_append, changedObjs, ih, List.append_assoc]

/-! ### The sections -/

theorem Spec.IsLine.more {l w : Bytes} (h : IsLine l w) (tail : Bytes) : IsLine l (w ++ tail) := by
  cases h with
  | lf hb => exact .lf hb
  | crlf hb => exact .crlf hb
  | cr hb hc => exact .cr hb hc

/-- The sections after some updates, the newest first. -/
def updateSecs : (start prev : Nat) → List Update → List Sec → List Sec
  | _, _, [], acc => acc
  | s, p, u :: us, acc => updateSecs (s + (writeUpdate s p u).length) (s + (changedObjs u.changes).length) us (⟨tablePos (changeEntries s u.changes), u.dict p⟩ :: acc)

/-- Where the last table is. -/
def lastTable : (start prev : Nat) → List Update → Nat
  | _, p, [] => p
  | s, p, u :: us => lastTable (s + (writeUpdate s p u).length) (s + (changedObjs u.changes).length) us

/-- The objects that the program finds after the updates: objects that are deleted stay as they were. -/
def updateObjs : List Update → List (Int × Obj) → List (Int × Obj)
  | [], acc => acc
  | u :: us, acc => updateObjs us (changeObjs u.changes ++ acc)

theorem Spec.Update.Valid.dict_wf {u : Update} (h : u.Valid) (p : Nat) : WF (.dict (u.dict p)) := by
  obtain ⟨h1, h2⟩ := h.trailerOk
  refine ⟨?_, items_and h2 ⟨⟨_, rfl⟩, trivial, trivial⟩⟩
  rw [Update.dict, List.map_append, List.nodup_append]
  refine ⟨h1, by simp, ?_⟩
  intro a ha b hb e
  subst e
  rw [List.map_cons, List.map_nil, List.mem_singleton] at hb
  subst hb
  exact (dictGet_none _ _).1 h.noPrev ha

theorem Spec.Update.Valid.prev {u : Update} (h : u.Valid) (p : Nat) : dictGet (u.dict p) (nm "Prev") = some (.int p) := by
  rw [Update.dict, dictGet_tail ((dictGet_none _ _).1 h.noPrev)]
  rfl

theorem Spec.Update.other (u : Update) (p : Nat) {k : Key} (hk : k ≠ nm "Prev") : dictGet (u.dict p) k = dictGet u.trailer k := by
  rw [Update.dict]
  exact dictGet_base (by simpa using fun h => hk h.symm)

/-- The section that an update adds. -/
theorem update_section (decode) (data : Bytes) (s p : Nat) (u : Update) (h : u.Valid) (tail : Bytes) (hd : data.drop s = writeUpdate s p u ++ tail) {secs : List Sec}
    (hc : Chain decode data (some (.int p)) secs) : Chain decode data (some (.int ↑(s + (changedObjs u.changes).length))) (⟨tablePos (changeEntries s u.changes), u.dict p⟩ :: secs) := by
  obtain ⟨c, l, w, t1, t2, t3, t4⟩ := trailer_at (u.dict p) (h.dict_wf p) (s + (changedObjs u.changes).length)
  rw [writeUpdate, List.append_assoc, List.append_assoc, List.append_assoc] at hd
  have hxr := drop_at _ hd
  have htab := drop_at _ hxr
  have htr := drop_at _ htab
  rw [show (asc "xref\n").length = 5 from rfl] at htab htr
  obtain ⟨pts, g1, g2⟩ := trailer_text (u.dict p) (h.dict_wf p) (s + (changedObjs u.changes).length + 5 + (changeLines s u.changes).flatten.length) (c ++ tail)
  have := Chain.cons (decode := decode) (data := data) (p := s + (changedObjs u.changes).length) (sec := ⟨tablePos (changeEntries s u.changes), u.dict p⟩) (a := []) (c := secs)
      (.table (l0 := [10]) (w := (changeLines s u.changes).flatten ++ (writeTrailer (u.dict p) (s + (changedObjs u.changes).length) ++ tail)) ⟨hxr, by unfold Blank; decide, .lf (body := []) (by unfold NoEol; decide),
        dull_lines _ _ (dull_changes _ _) _ _ htab, table_changes _ _, htr.trans (by rw [t1, List.append_assoc]), ?_, t3, htr.trans (by rw [t4, List.append_assoc]; rfl), g2, g1, writes_obj rfl _ (h.dict_wf p)⟩)
      (by rw [show dictGet (u.dict p) (.name [88, 82, 101, 102, 83, 116, 109]) = none from (u.other p (by decide)).trans h.noStm]; exact .nil)
      (by rw [show dictGet (u.dict p) (.name [80, 114, 101, 118]) = some (.int p) from h.prev p]; exact hc)
  · exact this
  · exact t2.more tail

theorem updates_chain (decode) (data : Bytes) (us : List Update) (h : ∀ u ∈ us, u.Valid) (s p : Nat) (tail : Bytes) (hd : data.drop s = writeUpdates s p us ++ tail) (secs : List Sec)
    (hc : Chain decode data (some (.int p)) secs) : Chain decode data (some (.int (lastTable s p us))) (updateSecs s p us secs) := by
  induction us generalizing s p secs with
  | nil => exact hc
  | cons u us ih =>
    rw [writeUpdates, List.append_assoc] at hd
    exact ih (fun x hx => h x (by simp [hx])) _ _ (drop_at _ hd) _ (update_section decode data s p u (h u (by simp)) _ hd hc)


/-- The section of the file before the updates, and what the scan of the file finds: it ends at the first trailer. -/
theorem base_sections (decode) (objs : List Obj) (trailer : List (Key × Obj)) (ho : ∀ o ∈ objs, Writable o) (ht : WF (.dict trailer))
    (hp : dictGet trailer (nm "Prev") = none) (hx : dictGet trailer (nm "XRefStm") = none) (tail : Bytes) :
    Chain decode (writeFile objs trailer ++ tail) (some (.int (writeBody objs).length)) [⟨tablePos ((0, none) :: tableEntries 1 9 objs), trailer⟩] ∧
    ∃ q, Region decode (writeFile objs trailer ++ tail) 0 (places 1 9 objs) q ∧ ScanEnd (writeFile objs trailer ++ tail) q trailer := by
  obtain ⟨c, l, w, t1, t2, t3, t4⟩ := trailer_at trailer ht (writeBody objs).length
  have hbody : (writeBody objs).length = 9 + (writeObjs 1 objs).length := by simp [writeBody]; rfl
  have h0 : (writeFile objs trailer ++ tail).drop 0 = asc "%PDF-1.4\n" ++ (writeObjs 1 objs ++ (asc "xref\n" ++ ((tableLines objs).flatten ++ (writeTrailer trailer (writeBody objs).length ++ tail)))) := by
    simp only [List.drop_zero, writeFile, writeBody, List.append_assoc]
  have h9 := drop_at _ h0
  have hxr := drop_at _ h9
  have htab := drop_at _ hxr
  have htr := drop_at _ htab
  rw [show 0 + (asc "%PDF-1.4\n").length = 9 from rfl] at h9 hxr htab htr
  rw [← hbody] at hxr htab htr
  rw [show (asc "xref\n").length = 5 from rfl] at htab htr
  obtain ⟨pts, g1, g2⟩ := trailer_text trailer ht ((writeBody objs).length + 5 + (tableLines objs).flatten.length) (c ++ tail)
  have u1 := htr.trans (show _ = l ++ (w ++ tail) by rw [t1, List.append_assoc])
  have u2 := htr.trans (show _ = (printToks ([.kw kwTrailer] ++ objToks (.dict trailer)) ++ ([10] ++ kwStartxref)) ++ 10 :: (c ++ tail) by rw [t4, List.append_assoc]; rfl)
  refine ⟨?_, _, ?_, .trailer u1 (t2.more tail) t3 u2 g2 g1 (writes_obj rfl _ ht)⟩
  · have := Chain.cons (decode := decode) (data := writeFile objs trailer ++ tail) (p := (writeBody objs).length) (sec := ⟨tablePos ((0, none) :: tableEntries 1 9 objs), trailer⟩) (a := []) (c := [])
      (.table (l0 := [10]) (w := (tableLines objs).flatten ++ (writeTrailer trailer (writeBody objs).length ++ tail)) ⟨hxr, by unfold Blank; decide, .lf (body := []) (by unfold NoEol; decide),
        dull_lines _ _ (dull_table objs) _ _ htab, table_written objs, u1, t2.more tail, t3, u2, g2, g1, writes_obj rfl _ ht⟩)
      (by rw [show dictGet trailer (.name [88, 82, 101, 102, 83, 116, 109]) = none from hx]; exact .nil) (by rw [show dictGet trailer (.name [80, 114, 101, 118]) = none from hp]; exact .nil)
    exact this
  · refine .line (l := asc "%PDF-1.4\n") h0 (.lf (body := asc "%PDF-1.4") (by unfold NoEol; decide)) (by decide) (no_cue_b (by decide)) ?_
    have := region_objs decode (writeFile objs trailer ++ tail) objs ho 1 9 _ h9 (es := []) (q := (writeBody objs).length + 5 + (tableLines objs).flatten.length)
      (.line (l := asc "xref\n") (w := (tableLines objs).flatten ++ (writeTrailer trailer (writeBody objs).length ++ tail)) (hbody ▸ hxr) (.lf (body := asc "xref") (by unfold NoEol; decide)) (by decide) (no_cue_b (by decide))
        (region_dull _ _ _ (dull_table objs) _ _ (hbody ▸ htab) (hbody ▸ .done)))
    rw [List.append_nil] at this
    exact this

/-- The end of the file. -/
theorem updates_end (us : List Update) (s p : Nat) (before : Bytes) (trailer : List (Key × Obj)) :
    ∃ a t, (before ++ writeTrailer trailer p) ++ writeUpdates s p us = a ++ writeTrailer t (lastTable s p us) := by
  induction us generalizing s p before trailer with
  | nil => exact ⟨before, trailer, by simp [writeUpdates, lastTable]⟩
  | cons u us ih =>
    obtain ⟨a, t, h⟩ := ih (s + (writeUpdate s p u).length) (s + (changedObjs u.changes).length)
      (before ++ writeTrailer trailer p ++ (changedObjs u.changes ++ (asc "xref\n" ++ (changeLines s u.changes).flatten))) (u.dict p)
    refine ⟨a, t, ?_⟩
    rw [writeUpdates, lastTable, ← h]
    simp only [writeUpdate, List.append_assoc]

theorem fields_end (a : Bytes) (t : List (Key × Obj)) (x : Nat) :
    ∃ first pre, eolFields (a ++ writeTrailer t x) = first :: (pre ++ startxrefWord :: ([] ++ natDigits x :: [asc "%%EOF", []])) := by
  have e : a ++ writeTrailer t x = (a ++ printToks ([.kw kwTrailer] ++ objToks (.dict t))) ++ 10 ::
    (startxrefWord ++ 10 :: (natDigits x ++ 10 :: (asc "%%EOF" ++ 10 :: []))) := by
    simp only [writeTrailer, List.append_assoc]
    rfl
  rw [e, eolFields_split, eolFields_cons (by simp) (by unfold NoEol; decide), eolFields_cons (by simp) (noEol_digits (natDigits_spec _).2.1),
    eolFields_cons (by simp) (by unfold NoEol; decide)]
  cases h : eolFields (a ++ printToks ([.kw kwTrailer] ++ objToks (.dict t))) with
  | nil => exact absurd h (eolFields_ne _)
  | cons f fs => exact ⟨f, fs, by simp [eolFields]⟩

/-- **C115, sections.** The table of the last update comes first, then those of the updates before, the table of the file, and what the scan finds. -/
theorem updated_sections (decode) (objs : List Obj) (trailer : List (Key × Obj)) (us : List Update) (ho : ∀ o ∈ objs, Writable o) (ht : WF (.dict trailer))
    (hp : dictGet trailer (nm "Prev") = none) (hx : dictGet trailer (nm "XRefStm") = none) (hu : ∀ u ∈ us, u.Valid) :
    Sections decode (writeUpdated objs trailer us) (updateSecs (writeFile objs trailer).length (writeBody objs).length us
      [⟨tablePos ((0, none) :: tableEntries 1 9 objs), trailer⟩] ++ [⟨scanned (places 1 9 objs), trailer⟩]) := by
  obtain ⟨h1, q, h2, h3⟩ := base_sections decode objs trailer ho ht hp hx (writeUpdates (writeFile objs trailer).length (writeBody objs).length us)
  have hc := updates_chain decode (writeUpdated objs trailer us) us hu (writeFile objs trailer).length (writeBody objs).length [] (by rw [writeUpdated, List.drop_left, List.append_nil]) _ h1
  obtain ⟨a, t, he⟩ := updates_end us (writeFile objs trailer).length (writeBody objs).length (writeBody objs ++ (asc "xref\n" ++ (tableLines objs).flatten)) trailer
  have he' : writeUpdated objs trailer us = a ++ writeTrailer t (lastTable (writeFile objs trailer).length (writeBody objs).length us) := by
    rw [← he, writeUpdated]
    simp only [writeFile, List.append_assoc]
  obtain ⟨first, pre, hf⟩ := fields_end a t (lastTable (writeFile objs trailer).length (writeBody objs).length us)
  rw [← he'] at hf
  obtain ⟨d1, d2, d3⟩ := natDigits_spec (lastTable (writeFile objs trailer).length (writeBody objs).length us)
  refine Sections.intact hf (trims_same (by decide) (by decide)) (by simp) (trims_same ?_ ?_) ⟨d1, d2⟩ ?_ (by rw [d3]; exact hc) h2 h3
  · have := digits_head d2 d1 []
    rwa [List.append_nil] at this
  · intro x hx
    exact digit_not_white (d2 x (List.mem_of_getLast? hx))
  · intro f hf hs
    have := strip_of_trims hs
    simp only [List.mem_cons, List.not_mem_nil, or_false] at hf
    rcases hf with rfl | rfl
    · revert this; decide
    · revert this; decide

/-! ### The objects -/

/-- All the objects are at offsets that the sections know, and the sections know no others. -/
structure Stored (data : Bytes) (secs : List Sec) (objs : List (Int × Obj)) : Prop where
  located : ∀ i o, dictGet objs i = some o → i ≠ 0 ∧ (∀ j g, o ≠ .ref j g) ∧ ∃ newer sec older gen, ∃ pos : Nat, secs = newer ++ sec :: older ∧
    (∀ y ∈ newer, y.pos i = .error .keyError) ∧ sec.pos i = .ok (none, pos, gen) ∧ ObjectAt data pos i o
  complete : ∀ i, dictGet objs i = none → ∀ sec ∈ secs, sec.pos i = .error .keyError

theorem Stored.file {data : Bytes} {secs : List Sec} {objs : List (Int × Obj)} (h : Stored data secs objs) (decode) : FileObjects decode data secs objs where
  located i o hi := by
    obtain ⟨h0, _, newer, sec, older, gen, pos, h1, h2, h3, h4⟩ := h.located i o hi
    exact .offset h0 h1 h2 h3 h4
  direct i o hi := (h.located i o hi).2.1
  complete := h.complete

theorem dictGet_and (a b : List (Int × Obj)) (i : Int) : dictGet (a ++ b) i = match dictGet a i with
    | some o => some o
    | none => dictGet b i := by
  induction a with
  | nil => rfl
  | cons x a ih =>
    obtain ⟨j, o⟩ := x
    simp only [List.cons_append, dictGet]
    split
    · rfl
    · exact ih

/-- One more update. -/
theorem stored_update {data : Bytes} {secs : List Sec} {objs : List (Int × Obj)} (h : Stored data secs objs) (s p : Nat) (u : Update) (hu : u.Valid) (tail : Bytes)
    (hd : data.drop s = writeUpdate s p u ++ tail) : Stored data (⟨tablePos (changeEntries s u.changes), u.dict p⟩ :: secs) (changeObjs u.changes ++ objs) := by
  have key := changes_find s u.changes hu.once
  refine ⟨fun i o hi => ?_, fun i hi sec hs => ?_⟩
  · rw [dictGet_and] at hi
    cases hg : dictGet (changeObjs u.changes) i with
    | some o' =>
      rw [hg] at hi
      cases hi
      obtain ⟨a, b, n, h1, rfl, h3⟩ := (key i).2 o hg
      obtain ⟨h0, hw⟩ := hu.objects (n, some o) (by rw [h1]; simp) o rfl
      refine ⟨by omega, writable_direct hw, [], _, secs, 0, s + (changedObjs a).length, rfl, by simp, ?_, ?_⟩
      · simp only [tablePos, h3]; rfl
      · rw [writeUpdate, h1, changedObjs_append, changedObjs, List.append_assoc, List.append_assoc, List.append_assoc] at hd
        exact object_written _ _ _ o hw _ (drop_at _ hd)
    | none =>
      rw [hg] at hi
      obtain ⟨h0, hw, newer, sec, older, gen, pos, h1, h2, h3, h4⟩ := h.located i o hi
      refine ⟨h0, hw, _ :: newer, sec, older, gen, pos, by rw [h1]; rfl, ?_, h3, h4⟩
      intro y hy
      rcases List.mem_cons.1 hy with rfl | hy
      · simp only [tablePos, (key i).1 hg]
      · exact h2 y hy
  · rw [dictGet_and] at hi
    cases hg : dictGet (changeObjs u.changes) i with
    | some o' => rw [hg] at hi; cases hi
    | none =>
      rw [hg] at hi
      rcases List.mem_cons.1 hs with rfl | hs
      · simp only [tablePos, (key i).1 hg]
      · exact h.complete i hi sec hs

theorem stored_updates {data : Bytes} {rest : List Sec} (us : List Update) (hu : ∀ u ∈ us, u.Valid) (s p : Nat) (tail : Bytes) (hd : data.drop s = writeUpdates s p us ++ tail)
    {secs : List Sec} {objs : List (Int × Obj)} (h : Stored data (secs ++ rest) objs) : Stored data (updateSecs s p us secs ++ rest) (updateObjs us objs) := by
  induction us generalizing s p secs objs with
  | nil => exact h
  | cons u us ih =>
    rw [writeUpdates, List.append_assoc] at hd
    exact ih (fun x hx => hu x (by simp [hx])) _ _ (drop_at _ hd) (stored_update h s p u (hu u (by simp)) _ hd)

theorem stored_base (objs : List Obj) (trailer : List (Key × Obj)) (ho : ∀ o ∈ objs, Writable o) (tail : Bytes) :
    Stored (writeFile objs trailer ++ tail) ([⟨tablePos ((0, none) :: tableEntries 1 9 objs), trailer⟩] ++ [⟨scanned (places 1 9 objs), trailer⟩]) (numbered 1 objs) := by
  have h9 : (writeFile objs trailer ++ tail).drop 9 = writeObjs 1 objs ++ (asc "xref\n" ++ ((tableLines objs).flatten ++ (writeTrailer trailer (writeBody objs).length ++ tail))) := by
    have := drop_at (data := writeFile objs trailer ++ tail) (p := 0) (asc "%PDF-1.4\n") (b := writeObjs 1 objs ++ (asc "xref\n" ++ ((tableLines objs).flatten ++ (writeTrailer trailer (writeBody objs).length ++ tail))))
      (by simp only [List.drop_zero, writeFile, writeBody, List.append_assoc])
    rw [show 0 + (asc "%PDF-1.4\n").length = 9 from rfl] at this
    exact this
  refine ⟨?_, (written_objects (fun _ b => .ok b) objs trailer ho).complete⟩
  intro j o hg
  have := entries_find 1 9 objs j
  rw [hg] at this
  obtain ⟨a, b, h1, rfl, h3, h4⟩ := this
  refine ⟨by push_cast; omega, writable_direct (ho o (by rw [h1]; simp)), [], _, _, 0, 9 + (writeObjs 1 a).length, rfl, by simp, ?_, ?_⟩
  · simp only [tablePos, lastUsed, h4]; rfl
  · rw [h1, writeObjs_append, writeObjs, List.append_assoc, List.append_assoc] at h9
    exact object_written _ _ _ o (ho o (by rw [h1]; simp)) _ (h1 ▸ drop_at _ h9)

/-- **C115, objects.** Every object is found where the last update that mentions it has put it. -/
theorem updated_objects (decode) (objs : List Obj) (trailer : List (Key × Obj)) (us : List Update) (ho : ∀ o ∈ objs, Writable o) (hu : ∀ u ∈ us, u.Valid) :
    FileObjects decode (writeUpdated objs trailer us) (updateSecs (writeFile objs trailer).length (writeBody objs).length us
      [⟨tablePos ((0, none) :: tableEntries 1 9 objs), trailer⟩] ++ [⟨scanned (places 1 9 objs), trailer⟩]) (updateObjs us (numbered 1 objs)) :=
  (stored_updates (data := writeUpdated objs trailer us) us hu _ _ [] (by rw [writeUpdated, List.drop_left, List.append_nil]) (stored_base objs trailer ho _)).file decode

/-! ### The document -/

/-- The trailer of the last update. -/
def newTrailer (trailer : List (Key × Obj)) (us : List Update) : List (Key × Obj) := us.foldl (fun _ u => u.trailer) trailer

theorem newTrailer_secs (us : List Update) (s p : Nat) (sec : Sec) (acc : List Sec) (trailer : List (Key × Obj)) (h : ∀ k, k ≠ nm "Prev" → dictGet sec.trailer k = dictGet trailer k) :
    ∃ sec' acc', updateSecs s p us (sec :: acc) = sec' :: acc' ∧ ∀ k, k ≠ nm "Prev" → dictGet sec'.trailer k = dictGet (newTrailer trailer us) k := by
  induction us generalizing s p sec acc trailer with
  | nil => exact ⟨sec, acc, rfl, h⟩
  | cons u us ih => exact ih _ _ _ _ u.trailer fun k hk => u.other p hk

/-- The file with its updates is a file with these objects; an object that is deleted keeps its last value. -/
theorem updated_plain (S : Setup) (objs : List Obj) (trailer : List (Key × Obj)) (us : List Update) (ho : ∀ o ∈ objs, Spec.Writable o) (ht : WF (.dict trailer))
    (hp : dictGet trailer (nm "Prev") = none) (hx : dictGet trailer (nm "XRefStm") = none) (hu : ∀ u ∈ us, u.Valid) {root : Obj} {catalog : List (Key × Obj)}
    (hr : dictGet (newTrailer trailer us) (nm "Root") = some root) (he : dictGet (newTrailer trailer us) (nm "Encrypt") = none)
    (hi : ∀ g, dictGet (newTrailer trailer us) (nm "Info") ≠ some (.ref 0 g)) (hc : (fileResolver (updateObjs us (numbered 1 objs))).resolve1 root = .ok (.dict catalog)) :
    PlainFile S (writeUpdated objs trailer us) (updateObjs us (numbered 1 objs)) catalog := by
  obtain ⟨sec, acc, h1, h2⟩ := newTrailer_secs us (writeFile objs trailer).length (writeBody objs).length ⟨tablePos ((0, none) :: tableEntries 1 9 objs), trailer⟩ [] trailer fun _ _ => rfl
  refine ⟨_, [], sec.trailer, (acc ++ [(⟨scanned (places 1 9 objs), trailer⟩ : Sec)]).map Sec.trailer, root, updated_sections S.fileDecode objs trailer us ho ht hp hx hu,
    updated_objects S.fileDecode objs trailer us ho hu, by rw [h1]; rfl, by simp, (h2 _ (by decide)).trans hr, ?_, ?_, hc⟩
  · intro x hx
    rw [List.nil_append, List.mem_singleton] at hx
    subst hx
    exact (h2 _ (by decide)).trans he
  · intro x hx v hv
    rw [List.nil_append, List.mem_singleton] at hx
    subst hx
    rw [h2 _ (by decide)] at hv
    cases v with
    | ref i g => exact ⟨_, if_neg (fun e => hi g (by rw [hv, e]))⟩
    | _ => exact ⟨_, rfl⟩

theorem change_get (u : Update) (h : u.Keeps) (acc : List (Int × Obj)) (i : Int) : dictGet (changeObjs u.changes ++ acc) i = u.change i (dictGet acc i) := by
  obtain ⟨cs, t⟩ := u
  unfold Update.change
  dsimp only
  replace h : ∀ x ∈ cs, x.2 ≠ none := h
  induction cs with
  | nil => rfl
  | cons x cs ih =>
    obtain ⟨j, c⟩ := x
    cases c with
    | none => exact absurd rfl (h (j, none) (by simp))
    | some o =>
      show dictGet (((j : Int), o) :: (changeObjs cs ++ acc)) i = _
      rw [dictGet, List.find?_cons]
      by_cases hj : (j : Int) = i
      · simp [hj]
      · simp only [hj, if_false, decide_false]
        exact ih fun x hx => h x (by simp [hx])

theorem after_get (us : List Update) (h : ∀ u ∈ us, u.Keeps) (acc : List (Int × Obj)) (i : Int) :
    dictGet (updateObjs us acc) i = us.foldl (fun old u => u.change i old) (dictGet acc i) := by
  induction us generalizing acc with
  | nil => rfl
  | cons u us ih =>
    rw [updateObjs, ih (fun x hx => h x (by simp [hx])), change_get u (h u (by simp))]
    rfl

/-- Two calls with two files give the same pages, the same exception if there is one, and the same output of all converters. -/
def Spec.SameResults (S : Setup) (opts opts' : Options) (a b : Bytes) : Prop := ∃ N, ∀ fuel ≥ N, deliver S opts fuel a = deliver S opts' fuel b ∧
  convertText S opts fuel a = convertText S opts' fuel b ∧ (∀ env, convertJson env S opts fuel a = convertJson env S opts' fuel b) ∧
  (∀ env, convertYaml env S opts fuel a = convertYaml env S opts' fuel b) ∧ (∀ env codec, convertXml env codec S opts fuel a = convertXml env codec S opts' fuel b) ∧
  (∀ env codec, convertHtml env codec S opts fuel a = convertHtml env codec S opts' fuel b)

theorem without_objs (us : List Update) (acc : List (Int × Obj)) : updateObjs (us.map Update.withoutDeletions) acc = updateObjs us acc := by
  induction us generalizing acc with
  | nil => rfl
  | cons u us ih =>
    rw [List.map_cons, updateObjs, updateObjs, ih]
    congr 2
    obtain ⟨cs, t⟩ := u
    show changeObjs (cs.filter fun x => x.2.isSome) = changeObjs cs
    induction cs with
    | nil => rfl
    | cons x cs ih =>
      obtain ⟨i, c⟩ := x
      cases c with
      | none => exact ih
      | some o => exact congrArg (((i : Int), o) :: ·) ih

theorem without_keeps (us : List Update) : ∀ u ∈ us.map Update.withoutDeletions, u.Keeps := by
  intro u hu x hx
  obtain ⟨v, _, rfl⟩ := List.mem_map.1 hu
  have := (List.mem_filter.1 hx).2
  intro e
  rw [e] at this
  cases this

theorem without_same {us : List Update} (h : ∀ u ∈ us, u.Keeps) : us.map Update.withoutDeletions = us := by
  induction us with
  | nil => rfl
  | cons u us ih =>
    rw [List.map_cons, ih fun x hx => h x (by simp [hx])]
    congr 1
    obtain ⟨cs, t⟩ := u
    show Update.mk (cs.filter fun x => x.2.isSome) t = _
    rw [List.filter_eq_self.2 fun x hx => by
      cases hc : x.2 with
      | none => exact absurd hc (h ⟨cs, t⟩ (by simp) x hx)
      | some o => rfl]

/-- **C115.** A file with any number of updates gives what a file gives that is written anew with the objects as the updates have left them, if deletions are left out:
the same pages with the same items, the same exception if there is one, and the same output of all converters. -/
theorem update_transparent (S : Setup) (hb : 0 < S.bufsiz) (hm : ∀ x, (S.crypto.md5 x).length = 16) (hsha : ∀ x, (S.crypto.sha x).length = 32) (E : Bytes → Bytes → Bytes)
    (hc : BlockCipher E S.crypto.aes) (objs : List Obj) (trailer : List (Key × Obj)) (us : List Update) (ho : ∀ o ∈ objs, Spec.Writable o) (ht : WF (.dict trailer))
    (hp : dictGet trailer (nm "Prev") = none) (hx : dictGet trailer (nm "XRefStm") = none) (hu : ∀ u ∈ us, u.Valid)
    (he : dictGet (newTrailer trailer us) (nm "Encrypt") = none) (hi : ∀ g, dictGet (newTrailer trailer us) (nm "Info") ≠ some (.ref 0 g))
    (final : List Obj) (hw : ∀ o ∈ final, Spec.Writable o) (hf : ∀ i, afterUpdates objs (us.map Update.withoutDeletions) i = dictGet (numbered 1 final) i)
    {r : Nat} {g : Int} {catalog : List (Key × Obj)} (hr : dictGet (newTrailer trailer us) (nm "Root") = some (.ref (r + 1 : Nat) g)) (hcat : final[r]? = some (.dict catalog))
    (hpg : HasPage (numbered 1 final) catalog) (opts opts' : Options) (hs : SameRequest opts opts') :
    SameResults S opts opts' (writeUpdated objs trailer us) (Spec.writeFile final [(nm "Root", .ref (r + 1 : Nat) g)]) := by
  have hg : ∀ i, dictGet (updateObjs us (numbered 1 objs)) i = dictGet (numbered 1 final) i := fun i => ((congrArg (dictGet · i) (without_objs us _)).symm.trans (after_get _ (without_keeps us) _ i)).trans (hf i)
  have hres : fileResolver (updateObjs us (numbered 1 objs)) = fileResolver (numbered 1 final) := by
    unfold fileResolver
    simp only [hg]
  have h1 : Readable S E opts (writeUpdated objs trailer us) (updateObjs us (numbered 1 objs)) catalog :=
    .plain (updated_plain S objs trailer us ho ht hp hx hu hr he hi (by rw [hres]; exact numbered_root hcat))
  have h2 : Readable S E opts' (Spec.writeFile final [(nm "Root", .ref (r + 1 : Nat) g)]) (numbered 1 final) catalog := .plain (plain_written S hw hcat)
  have h3 : HasPage (updateObjs us (numbered 1 objs)) catalog := by
    unfold HasPage
    rw [hres]
    exact hpg
  obtain ⟨N1, g1⟩ := same_objects hb hm hsha hc h1 h2 hg h3 hs
  obtain ⟨N2, g2⟩ := same_output hb hm hsha hc h1 h2 hg h3 hs
  exact ⟨max N1 N2, fun fuel hf => ⟨g1 fuel (le_trans (le_max_left _ _) hf), g2 fuel (le_trans (le_max_right _ _) hf)⟩⟩

/-- **C115 for updates that delete nothing.** What is missing: an object that an update deletes is found as it was before (`deleted_counterexample`). -/
theorem update_transparent_partial (S : Setup) (hb : 0 < S.bufsiz) (hm : ∀ x, (S.crypto.md5 x).length = 16) (hsha : ∀ x, (S.crypto.sha x).length = 32) (E : Bytes → Bytes → Bytes)
    (hc : BlockCipher E S.crypto.aes) (objs : List Obj) (trailer : List (Key × Obj)) (us : List Update) (ho : ∀ o ∈ objs, Spec.Writable o) (ht : WF (.dict trailer))
    (hp : dictGet trailer (nm "Prev") = none) (hx : dictGet trailer (nm "XRefStm") = none) (hu : ∀ u ∈ us, u.Valid) (hk : ∀ u ∈ us, u.Keeps)
    (he : dictGet (newTrailer trailer us) (nm "Encrypt") = none) (hi : ∀ g, dictGet (newTrailer trailer us) (nm "Info") ≠ some (.ref 0 g))
    (final : List Obj) (hw : ∀ o ∈ final, Spec.Writable o) (hf : ∀ i, afterUpdates objs us i = dictGet (numbered 1 final) i)
    {r : Nat} {g : Int} {catalog : List (Key × Obj)} (hr : dictGet (newTrailer trailer us) (nm "Root") = some (.ref (r + 1 : Nat) g)) (hcat : final[r]? = some (.dict catalog))
    (hpg : HasPage (numbered 1 final) catalog) (opts opts' : Options) (hs : SameRequest opts opts') :
    SameResults S opts opts' (writeUpdated objs trailer us) (Spec.writeFile final [(nm "Root", .ref (r + 1 : Nat) g)]) :=
  update_transparent S hb hm hsha E hc objs trailer us ho ht hp hx hu he hi final hw (by rw [without_same hk]; exact hf) hr hcat hpg opts opts' hs

/-- A document whose second object is deleted by an update. -/
def deletedObjs : List Obj := [.dict [(nm "Type", .name (asc "Catalog"))], .int 7]
def deletion : Update := ⟨[(2, none)], [(nm "Root", .ref 1 0)]⟩

theorem deletion_valid : deletion.Valid where
  objects := by
    intro x hx o h
    rw [deletion, List.mem_singleton] at hx
    subst hx
    cases h
  once := by decide
  trailerOk := ⟨by decide, ⟨_, rfl⟩, trivial, trivial⟩
  noPrev := by decide
  noStm := by decide

/-- A deleted object is still there. -/
theorem deleted_counterexample (S : Setup) (hb : 0 < S.bufsiz) : afterUpdates deletedObjs [deletion] 2 = none ∧ ∃ N, ∀ fuel ≥ N, ∃ O,
    openDocument S none true fuel (writeUpdated deletedObjs [(nm "Root", .ref 1 0)] [deletion]) = .ok O ∧ (O.resolver true fuel).getobj 2 = .ok (.int 7) := by
  refine ⟨by decide, ?_⟩
  have hw : ∀ o ∈ deletedObjs, Spec.Writable o := by
    intro o ho
    simp only [deletedObjs, List.mem_cons, List.not_mem_nil, or_false] at ho
    rcases ho with rfl | rfl
    · exact ⟨by decide, ⟨_, rfl⟩, trivial, trivial⟩
    · trivial
  obtain ⟨secs, before, t, after, root, h1, h2, h3, h4, h5, h6, h7, h8⟩ := updated_plain S deletedObjs [(nm "Root", .ref 1 0)] [deletion] hw ⟨by decide, ⟨_, rfl⟩, trivial, trivial⟩
    (by decide) (by decide) (by rintro u hu; rw [List.mem_singleton] at hu; exact hu ▸ deletion_valid) (root := .ref 1 0) (catalog := [(nm "Type", .name (asc "Catalog"))]) (by decide) (by decide) (by intro g h; cases h) rfl
  obtain ⟨N, hN⟩ := document_open (S := S) hb h1 h2 h3 h4 h5 h6 h7 h8 none true
  refine ⟨N, fun fuel hf => ?_⟩
  obtain ⟨O, a1, _, _, a4⟩ := hN fuel hf
  exact ⟨O, a1, by rw [a4]; rfl⟩

/-! ### Edits -/

theorem edit_change (root : Obj) (e : Nat × Obj) (l : List Obj) (h : e.1 < l.length) (i : Int) :
    (edit root e).change i (dictGet (numbered 1 l) i) = dictGet (numbered 1 (l.set e.1 e.2)) i := by
  obtain ⟨k, o⟩ := e
  replace h : k < l.length := h
  simp only [Update.change, edit, List.find?_cons, List.find?_nil]
  by_cases hi : ((k + 1 : Nat) : Int) = i
  · subst hi
    have := numbered_get 1 (l.set k o) k
    rw [Nat.add_comm] at this
    rw [this]
    simp [h]
  · simp only [hi, decide_false]
    by_cases hr : i < 1 ∨ ((1 + l.length : Nat) : Int) ≤ i
    · rw [numbered_none 1 l i hr, numbered_none 1 (l.set k o) i (by rw [List.length_set]; exact hr)]
    · obtain ⟨j, rfl⟩ : ∃ j : Nat, i = ↑(1 + j) := ⟨(i - 1).toNat, by push_cast at hr ⊢; omega⟩
      rw [numbered_get, numbered_get, List.getElem?_set_ne (by intro h; subst h; exact hi (by push_cast; omega))]

theorem edited_after (root : Obj) (es : List (Nat × Obj)) (objs : List Obj) (h : ∀ e ∈ es, e.1 < objs.length) (i : Int) :
    afterUpdates objs (es.map (edit root)) i = dictGet (numbered 1 (edited objs es)) i := by
  unfold afterUpdates edited
  induction es generalizing objs with
  | nil => rfl
  | cons e es ih =>
    rw [List.map_cons, List.foldl_cons, List.foldl_cons, edit_change root e objs (h e (by simp))]
    exact ih (objs.set e.1 e.2) fun x hx => by rw [List.length_set]; exact h x (by simp [hx])

theorem edited_writable {es : List (Nat × Obj)} {objs : List Obj} (ho : ∀ o ∈ objs, Spec.Writable o) (h : ∀ e ∈ es, Spec.Writable e.2) : ∀ o ∈ edited objs es, Spec.Writable o := by
  unfold edited
  induction es generalizing objs with
  | nil => exact ho
  | cons e es ih =>
    refine ih (fun o h1 => ?_) fun x hx => h x (by simp [hx])
    rcases List.mem_or_eq_of_mem_set h1 with h1 | rfl
    · exact ho o h1
    · exact h e (by simp)

theorem edit_valid {root : Obj} (hr : WF root) {e : Nat × Obj} (h : Spec.Writable e.2) : (edit root e).Valid where
  objects := by
    intro x hx o ho
    rw [edit, List.mem_singleton] at hx
    subst hx
    cases ho
    exact ⟨Nat.succ_ne_zero _, h⟩
  once := by simp [edit]
  trailerOk := ⟨by simp [edit], ⟨_, rfl⟩, hr, trivial⟩
  noPrev := by simp only [edit, dictGet]; rw [if_neg (by decide)]
  noStm := by simp only [edit, dictGet]; rw [if_neg (by decide)]

theorem edit_trailer (root : Obj) (es : List (Nat × Obj)) : newTrailer [(nm "Root", root)] (es.map (edit root)) = [(nm "Root", root)] := by
  unfold newTrailer
  induction es with
  | nil => rfl
  | cons e es ih => exact ih

/-- **C115, edits.** Replacing objects one after another by updates gives what the document gives that has the new objects from the beginning. -/
theorem edits_transparent (S : Setup) (hb : 0 < S.bufsiz) (hm : ∀ x, (S.crypto.md5 x).length = 16) (hsha : ∀ x, (S.crypto.sha x).length = 32) (E : Bytes → Bytes → Bytes)
    (hc : BlockCipher E S.crypto.aes) (objs : List Obj) (es : List (Nat × Obj)) (ho : ∀ o ∈ objs, Spec.Writable o) (h : ∀ e ∈ es, e.1 < objs.length ∧ Spec.Writable e.2)
    {r : Nat} {g : Int} {catalog : List (Key × Obj)} (hcat : (edited objs es)[r]? = some (.dict catalog)) (hpg : HasPage (numbered 1 (edited objs es)) catalog)
    (opts opts' : Options) (hs : SameRequest opts opts') :
    SameResults S opts opts' (writeUpdated objs [(nm "Root", .ref (r + 1 : Nat) g)] (es.map (edit (.ref (r + 1 : Nat) g)))) (Spec.writeFile (edited objs es) [(nm "Root", .ref (r + 1 : Nat) g)]) := by
  have hg : ∀ {k : Key}, k ≠ nm "Root" → dictGet (newTrailer [(nm "Root", Obj.ref (r + 1 : Nat) g)] (es.map (edit (.ref (r + 1 : Nat) g)))) k = none := fun h => by
    rw [edit_trailer]
    simp only [dictGet]
    rw [if_neg (Ne.symm h)]
  refine update_transparent_partial S hb hm hsha E hc objs [(nm "Root", .ref (r + 1 : Nat) g)] (es.map (edit (.ref (r + 1 : Nat) g))) ho ⟨by simp, ⟨_, rfl⟩, trivial, trivial⟩ (by simp only [dictGet]; rw [if_neg (by decide)])
    (by simp only [dictGet]; rw [if_neg (by decide)]) ?_ ?_ (hg (by decide)) (by intro g; rw [hg (by decide)]; simp) _ (edited_writable ho fun e he => (h e he).2)
    (edited_after _ es objs fun e he => (h e he).1) (by rw [edit_trailer]; rfl) hcat hpg opts opts' hs
  · intro u hu
    obtain ⟨e, he, rfl⟩ := List.mem_map.1 hu
    exact edit_valid (root := .ref (r + 1 : Nat) g) trivial (h e he).2
  · intro u hu
    obtain ⟨e, he, rfl⟩ := List.mem_map.1 hu
    intro x hx
    rw [edit, List.mem_singleton] at hx
    subst hx
    simp

/-- The sample with another text and without a catalogue, corrected by two updates: first the catalogue, then the text. -/
def sampleEdits : List (Nat × Obj) := [(0, .dict catalogDict), (4, (textObjs helvetica [[asc "Hi"]])[4]?.getD .null)]

theorem sample_edited : edited ((textObjs helvetica [[asc "Ho!"]]).set 0 (.int 7)) sampleEdits = textObjs helvetica [[asc "Hi"]] := rfl

example : SameResults sampleSetup {} {} (writeUpdated ((textObjs helvetica [[asc "Ho!"]]).set 0 (.int 7)) [(nm "Root", .ref 1 0)] (sampleEdits.map (edit (.ref 1 0))))
    (Spec.writeFile (textObjs helvetica [[asc "Hi"]]) [(nm "Root", .ref 1 0)]) := by
  have hw : ∀ t, ∀ o ∈ textObjs helvetica [[t]], Spec.Writable o := fun t => writable_text _ helvetica_wf _
  have := edits_transparent sampleSetup (by decide) toyHash_length toy_hash32 _ toy_cipher ((textObjs helvetica [[asc "Ho!"]]).set 0 (.int 7)) sampleEdits
    (by
      intro o ho
      rcases List.mem_or_eq_of_mem_set ho with h | rfl
      · exact hw _ o h
      · trivial)
    (by
      intro e he
      simp only [sampleEdits, List.mem_cons, List.not_mem_nil, or_false] at he
      rcases he with rfl | rfl
      · exact ⟨by decide, hw (asc "Hi") (.dict catalogDict) (by simp [textObjs])⟩
      · exact ⟨by decide, hw (asc "Hi") _ (by simp [textObjs, pageObjs])⟩)
    (r := 0) (g := 0) (catalog := catalogDict) rfl (by rw [sample_edited]; exact sample_has_page) {} {} ⟨rfl, rfl, rfl⟩
  rw [sample_edited] at this
  exact this

end Pdf

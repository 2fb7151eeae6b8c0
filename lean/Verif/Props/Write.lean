import Verif.Spec.Write
import Verif.Props.Pipeline
import Mathlib.Tactic.IntervalCases
/-! C91: files written by a simple writer are read back. -/

namespace Pdf
open Spec

/-! ### No line ends inside of objects -/

theorem noEol_and {a b : Bytes} (ha : NoEol a) (hb : NoEol b) : NoEol (a ++ b) := by
  intro c hc
  rcases List.mem_append.1 hc with h | h
  · exact ha c h
  · exact hb c h

theorem digit_noEol : ∀ c : UInt8, Digit c → c ≠ 10 ∧ c ≠ 13 := by
  refine forall_byte ?_
  decide +kernel

theorem noEol_digits {l : Bytes} (h : ∀ c ∈ l, Digit c) : NoEol l := fun c hc => digit_noEol c (h c hc)

theorem noEol_octal (s : Bytes) : NoEol (octalBody s) := by
  induction s with
  | nil => intro c hc; cases hc
  | cons c s ih =>
    have h : ∀ c : UInt8, NoEol [92, UInt8.ofNat (48 + c.toNat / 64), UInt8.ofNat (48 + c.toNat % 64 / 8), UInt8.ofNat (48 + c.toNat % 8)] := by
      refine forall_byte ?_
      unfold NoEol
      decide +kernel
    exact noEol_and (h c) ih

theorem noEol_name (s : Bytes) : NoEol (nameBody s) := by
  induction s with
  | nil => intro c hc; cases hc
  | cons c s ih =>
    rw [nameBody]
    split
    · rename_i h
      refine noEol_and (a := [c]) ?_ ih
      simp only [NoEol, List.mem_singleton, forall_eq]
      revert h
      revert c
      refine forall_byte ?_
      decide +kernel
    · have h : ∀ c : UInt8, NoEol [35, hexChr (c.toNat / 16), hexChr (c.toNat % 16)] := by
        refine forall_byte ?_
        unfold NoEol
        decide +kernel
      exact noEol_and (h c) ih

theorem noEol_sign (n : Int) : NoEol (signOf n) := by
  unfold signOf NoEol
  split <;> decide

theorem letter_noEol : ∀ c : UInt8, ((65 ≤ c.toNat ∧ c.toNat ≤ 90) ∨ (97 ≤ c.toNat ∧ c.toNat ≤ 122)) → c ≠ 10 ∧ c ≠ 13 := by
  refine forall_byte ?_
  decide +kernel

theorem delim_noEol : ∀ c : UInt8, ¬ Delim c → c ≠ 10 ∧ c ≠ 13 := by
  refine forall_byte ?_
  decide +kernel

theorem noEol_tok (t : Tok) (h : Printable t) : NoEol (printTok t) := by
  cases t with
  | int n => exact noEol_and (noEol_sign n) (noEol_digits (natDigits_spec _).2.1)
  | real m k =>
    have hp := (padded_spec m.natAbs k).2.1
    refine noEol_and (noEol_and (noEol_sign m) (noEol_digits fun c hc => hp c (List.mem_of_mem_take hc))) (noEol_and (a := [46]) (by unfold NoEol; decide) ?_)
    exact noEol_digits fun c hc => hp c (List.mem_of_mem_drop hc)
  | bool b => cases b <;> (unfold NoEol; decide)
  | str s => exact noEol_and (noEol_and (a := [40]) (by unfold NoEol; decide) (noEol_octal s)) (by unfold NoEol; decide)
  | lit n => exact noEol_and (a := [47]) (by unfold NoEol; decide) (noEol_name n)
  | kw n =>
    rcases h with h | ⟨c, cs, rfl, h1, h2, _, _⟩
    · have : ∀ n ∈ Spec.brackets, NoEol n := by unfold NoEol; decide
      exact this n h
    · intro x hx
      rcases List.mem_cons.1 hx with rfl | hx
      · exact letter_noEol x h1
      · exact delim_noEol x (h2 x hx)

theorem noEol_toks (ts : List Tok) (h : ∀ t ∈ ts, Printable t) : NoEol (printToks ts) := by
  induction ts with
  | nil => intro c hc; cases hc
  | cons t ts ih =>
    exact noEol_and (noEol_tok t (h t (by simp))) (noEol_and (a := [32]) (by unfold NoEol; decide) (ih fun x hx => h x (by simp [hx])))

/-! ### Objects -/

theorem printToks_append (a b : List Tok) : printToks (a ++ b) = printToks a ++ printToks b := by
  induction a with
  | nil => rfl
  | cons t a ih => simp [printToks, ih]

theorem printable_start (i : Nat) : ∀ t ∈ [Tok.int i, .int 0, .kw kwObj], Printable t := by
  have : Printable (.kw kwObj) := Or.inr ⟨111, [98, 106], rfl, by decide, by decide, by decide, by decide⟩
  simp [this]
  simp [Printable]

theorem printable_endobj : Printable (.kw kwEndobj) := Or.inr ⟨101, [110, 100, 111, 98, 106], rfl, by decide, by decide, by decide, by decide⟩

theorem cue_written (i : Nat) (r : Bytes) : Cue (printToks [.int i, .int 0, .kw kwObj] ++ r) i 0 := by
  obtain ⟨d1, d2, d3⟩ := natDigits_spec i
  have hn : signOf (i : Int) = [] := by unfold signOf; rw [if_neg (by omega)]
  have := Cue.mk (d1 := natDigits i) (s1 := [32]) (d2 := [48]) (s2 := [32]) (r := 32 :: r) ⟨d1, d2⟩ (by simp) (by decide) ⟨by simp, by decide⟩ (by simp) (by decide)
    (by simp; unfold WordL; decide)
  rw [d3] at this
  have e : printToks [.int i, .int 0, .kw kwObj] ++ r = natDigits i ++ ([32] ++ ([48] ++ ([32] ++ ([111, 98, 106] ++ 32 :: r)))) := by
    simp only [printToks, printTok, hn, Int.natAbs_natCast, kwObj]
    have : signOf 0 ++ natDigits (Int.natAbs 0) = [48] := by decide +kernel
    rw [this]
    simp
  rw [e]
  exact this

theorem no_cue_b {l : Bytes} (h : 98 ∉ l) : ∀ i g, ¬ Cue l i g := by
  rintro i g hc
  cases hc with
  | mk => simp at h

theorem no_trailer {l : Bytes} (h : 105 ∉ l) : ¬ kwTrailer <+: l := fun hp => h (hp.subset (by decide))

/-- `endstream` ends where it is written, not before. -/
theorem first_endstream {body : Bytes} (h : ¬ kwEndstream <:+: body) (rest : Bytes) : ∀ j < body.length, ¬ kwEndstream <+: (body ++ (kwEndstream ++ rest)).drop j := by
  intro j hj hp
  rw [List.drop_append_of_le_length (by omega)] at hp
  have hr : (body.drop j).length = body.length - j := by simp
  by_cases hl : 9 ≤ (body.drop j).length
  · refine h ?_
    have h1 : kwEndstream <+: body.drop j := List.prefix_of_prefix_length_le hp (List.prefix_append _ _) hl
    exact h1.isInfix.trans (List.drop_suffix _ _).isInfix
  · generalize body.drop j = s at *
    obtain ⟨z, hz⟩ := hp
    have hs : s = kwEndstream.take s.length := by
      have := congrArg (List.take s.length) hz
      rw [List.take_append_of_le_length (by simp [kwEndstream]; omega), List.take_left'  rfl] at this
      exact this.symm
    have hd : kwEndstream.drop s.length <+: kwEndstream ++ rest := by
      have := congrArg (List.drop s.length) hz
      rw [List.drop_append_of_le_length (by simp [kwEndstream]; omega), List.drop_left' rfl] at this
      exact ⟨z, this⟩
    have hd2 : kwEndstream.drop s.length <+: kwEndstream := List.prefix_of_prefix_length_le hd (List.prefix_append _ _) (by simp)
    have hpos : 0 < s.length := by omega
    have hlt : s.length < 9 := by omega
    generalize s.length = n at *
    revert hd2
    interval_cases n <;> decide

/-! ### The body of the file -/

/-- The places of the objects. -/
def places : (i p : Nat) → List Obj → List (Int × XPos)
  | _, _, [] => []
  | i, p, o :: os => (↑i, none, ↑p, 0) :: places (i + 1) (p + (writeObj i o).length) os

theorem wf_of_writable {o : Obj} (h : Writable o) (hs : ∀ d b, o ≠ .stream d b) : WF o := by
  cases o <;> first | exact h | exact absurd rfl (hs _ _) | exact h.elim

theorem writeObj_plain (i : Nat) (o : Obj) (hs : ∀ d b, o ≠ .stream d b) :
    writeObj i o = printToks ([.int i, .int 0, .kw kwObj] ++ objToks o ++ [.kw kwEndobj]) ++ [10] := by
  cases o <;> first | rfl | exact absurd rfl (hs _ _)

theorem printable_body (i : Nat) {o : Obj} (h : WF o) : ∀ t ∈ [Tok.int i, .int 0, .kw kwObj] ++ objToks o, Printable t := by
  intro t ht
  rcases List.mem_append.1 ht with ht | ht
  · exact printable_start i t ht
  · exact printable_obj o h t ht

theorem printable_whole (i : Nat) {o : Obj} (h : WF o) : ∀ t ∈ [Tok.int i, .int 0, .kw kwObj] ++ objToks o ++ [.kw kwEndobj], Printable t := by
  intro t ht
  rcases List.mem_append.1 ht with ht | ht
  · exact printable_body i h t ht
  · rw [List.mem_singleton] at ht; subst ht; exact printable_endobj

theorem stream_unfinished {l : Bytes} (h : 10 ∈ l) : ¬ Unfinished l := by
  rintro (h1 | ⟨body, h1, rfl⟩)
  · exact (h1 10 h).1 rfl
  · rcases List.mem_append.1 h with h | h
    · exact (h1 10 h).1 rfl
    · simp at h

/-- The text after some part of what stands at an offset. -/
theorem drop_at {data : Bytes} {p : Nat} (a : Bytes) {b : Bytes} (h : data.drop p = a ++ b) : data.drop (p + a.length) = b := by
  rw [← List.drop_drop, h, List.drop_left]

/-- One object of the body. -/
theorem region_obj (decode) (data : Bytes) (i p : Nat) (o : Obj) (h : Writable o) (tail : Bytes) (hd : data.drop p = writeObj i o ++ tail) {es q}
    (hr : Region decode data (p + (writeObj i o).length) es q) : Region decode data p ((↑i, none, ↑p, 0) :: es) q := by
  by_cases hs : ∃ d b, o = .stream d b
  · obtain ⟨d, body, rfl⟩ := hs
    obtain ⟨h1, h2, h3⟩ := h
    have e : writeObj i (.stream d body) = printToks ([.int i, .int 0, .kw kwObj] ++ objToks (.dict d)) ++ (kwStream ++ ([10] ++ (body ++
      (kwEndstream ++ ([10] ++ (kwEndobj ++ [10])))))) := rfl
    have hd' : data.drop p = printToks ([.int i, .int 0, .kw kwObj] ++ objToks (.dict d)) ++ (kwStream ++ ([10] ++ (body ++
      (kwEndstream ++ ([10] ++ (kwEndobj ++ ([10] ++ tail))))))) := by rw [hd, e]; simp
    obtain ⟨pts, g1, g2⟩ := text_print _ (printable_body i h1) p (kwStream ++ ([10] ++ (body ++ (kwEndstream ++ ([10] ++ (kwEndobj ++ ([10] ++ tail)))))))
    refine Region.stream (g := 0) (l := printToks ([.int i, .int 0, .kw kwObj] ++ objToks (.dict d)) ++ kwStream ++ [10])
      (w := body ++ (kwEndstream ++ ([10] ++ (kwEndobj ++ ([10] ++ tail))))) (hd'.trans (by simp)) (.lf ?_) ?_ hd' g2 g1
      (writes_obj rfl _ h1) .lf (first_endstream h3 _) (by simp) (by decide) ⟨10, tail, rfl, by decide, by decide⟩ (stream_unfinished (by simp)) h2 ?_
    · exact noEol_and (noEol_toks _ (printable_body i h1)) (by unfold NoEol; decide)
    · rw [printToks_append, List.append_assoc, List.append_assoc]; exact cue_written i _
    · refine .line (l := [10]) (w := tail) ?_ (.lf (body := []) (by unfold NoEol; decide)) (by decide) (no_cue_b (by decide)) ?_
      · have := drop_at (printToks ([.int i, .int 0, .kw kwObj] ++ objToks (.dict d)) ++ (kwStream ++ [10]) ++ body ++ kwEndstream ++ [10] ++ kwEndobj) (b := [10] ++ tail)
          (hd'.trans (by simp))
        rw [← this]
        simp only [List.length_append, ← Nat.add_assoc]
        rfl
      · rw [e] at hr
        simp only [List.length_append, List.length_cons, List.length_nil, kwStream, kwEndstream, kwEndobj] at hr ⊢
        convert hr using 1
        omega
  · have hs : ∀ d b, o ≠ .stream d b := fun d b e => hs ⟨d, b, e⟩
    have hw := wf_of_writable h hs
    have e := writeObj_plain i o hs
    have hd' : data.drop p = printToks ([.int i, .int 0, .kw kwObj] ++ objToks o) ++ (kwEndobj ++ ([32, 10] ++ tail)) := by
      rw [hd, e, printToks_append]; simp [printToks, printTok]
    obtain ⟨pts, g1, g2⟩ := text_print _ (printable_body i hw) p (kwEndobj ++ ([32, 10] ++ tail))
    refine Region.object (g := 0) (l := printToks ([.int i, .int 0, .kw kwObj] ++ objToks o) ++ kwEndobj ++ [32] ++ [10]) (w := tail) (hd'.trans (by simp)) (.lf ?_) ?_ hd' g2 g1
      (writes_obj rfl _ hw) ⟨32, 10 :: tail, rfl, by decide, by decide⟩ ?_
    · exact noEol_and (noEol_and (noEol_toks _ (printable_body i hw)) (by unfold NoEol; decide)) (by unfold NoEol; decide)
    · rw [printToks_append, List.append_assoc, List.append_assoc, List.append_assoc]; exact cue_written i _
    · refine .line (l := [32, 10]) (w := tail) ?_ (.lf (body := [32]) (by unfold NoEol; decide)) (by decide) (no_cue_b (by decide)) ?_
      · have := drop_at (printToks ([.int i, .int 0, .kw kwObj] ++ objToks o) ++ kwEndobj) (b := [32, 10] ++ tail) (hd'.trans (by simp))
        rw [← this]
        simp only [List.length_append, ← Nat.add_assoc]
        rfl
      · rw [e, printToks_append] at hr
        simp only [List.length_append, List.length_cons, List.length_nil, printToks, printTok, kwEndobj] at hr ⊢
        convert hr using 1
        omega

/-- The objects of the body. -/
theorem region_objs (decode) (data : Bytes) (objs : List Obj) (h : ∀ o ∈ objs, Writable o) (i p : Nat) (tail : Bytes) (hd : data.drop p = writeObjs i objs ++ tail) {es q}
    (hr : Region decode data (p + (writeObjs i objs).length) es q) : Region decode data p (places i p objs ++ es) q := by
  induction objs generalizing i p with
  | nil => exact hr
  | cons o os ih =>
    rw [writeObjs, List.append_assoc] at hd
    refine region_obj decode data i p o (h o (by simp)) _ hd (ih (fun x hx => h x (by simp [hx])) _ _ (drop_at _ hd) ?_)
    rw [writeObjs] at hr
    rw [Nat.add_assoc, ← List.length_append]
    exact hr

/-! ### The table -/

/-- A line without anything that the scan looks for. -/
def DullLine (l : Bytes) : Prop := ∃ body, NoEol body ∧ l = body ++ [10] ∧ 98 ∉ l ∧ 105 ∉ l

theorem digit_dull : ∀ c : UInt8, Digit c → c ≠ 98 ∧ c ≠ 105 := by
  refine forall_byte ?_
  decide +kernel

theorem digits_dull {l : Bytes} (h : ∀ c ∈ l, Digit c) : 98 ∉ l ∧ 105 ∉ l := ⟨fun h1 => (digit_dull _ (h _ h1)).1 rfl, fun h1 => (digit_dull _ (h _ h1)).2 rfl⟩

theorem dull_entry (p : Nat) : DullLine (padded p 9 ++ asc " 00000 n \n") := by
  have h := (padded_spec p 9).2.1
  obtain ⟨h1, h2⟩ := digits_dull h
  refine ⟨padded p 9 ++ asc " 00000 n ", noEol_and (noEol_digits h) (by unfold NoEol; decide), by rw [List.append_assoc]; rfl, ?_, ?_⟩
  · rw [List.mem_append]; rintro (h | h)
    · exact h1 h
    · revert h; decide
  · rw [List.mem_append]; rintro (h | h)
    · exact h2 h
    · revert h; decide

theorem dull_head (n : Nat) : DullLine (asc "0 " ++ natDigits n ++ [10]) := by
  have h := (natDigits_spec n).2.1
  obtain ⟨h1, h2⟩ := digits_dull h
  refine ⟨asc "0 " ++ natDigits n, noEol_and (by unfold NoEol; decide) (noEol_digits h), rfl, ?_, ?_⟩
  · rw [List.mem_append, List.mem_append]; rintro ((h | h) | h)
    · revert h; decide
    · exact h1 h
    · revert h; decide
  · rw [List.mem_append, List.mem_append]; rintro ((h | h) | h)
    · revert h; decide
    · exact h2 h
    · revert h; decide

theorem dull_entries (i p : Nat) (objs : List Obj) : ∀ l ∈ entryLines i p objs, DullLine l := by
  induction objs generalizing i p with
  | nil => intro l hl; cases hl
  | cons o os ih =>
    intro l hl
    rcases List.mem_cons.1 hl with rfl | hl
    · exact dull_entry p
    · exact ih _ _ l hl

theorem dull_table (objs : List Obj) : ∀ l ∈ tableLines objs, DullLine l := by
  intro l hl
  rcases List.mem_cons.1 hl with rfl | hl
  · exact dull_head _
  rcases List.mem_cons.1 hl with rfl | hl
  · exact ⟨asc "0000000000 65535 f ", by unfold NoEol; decide, by decide, by decide, by decide⟩
  · exact dull_entries _ _ _ l hl

theorem region_dull (decode) (data : Bytes) (ls : List Bytes) (h : ∀ l ∈ ls, DullLine l) (p : Nat) (tail : Bytes) (hd : data.drop p = ls.flatten ++ tail) {es q}
    (hr : Region decode data (p + ls.flatten.length) es q) : Region decode data p es q := by
  induction ls generalizing p with
  | nil => exact hr
  | cons l ls ih =>
    obtain ⟨body, h1, h2, h3, h4⟩ := h l (by simp)
    rw [List.flatten_cons, List.append_assoc] at hd
    refine .line hd (h2 ▸ .lf h1) (no_trailer h4) (no_cue_b h3) (ih (fun x hx => h x (by simp [hx])) _ (drop_at _ hd) ?_)
    rw [List.flatten_cons, List.length_append, ← Nat.add_assoc] at hr
    exact hr

theorem dull_lines (data : Bytes) (ls : List Bytes) (h : ∀ l ∈ ls, DullLine l) (p : Nat) (tail : Bytes) (hd : data.drop p = ls.flatten ++ tail) :
    LinesAt data p ls (p + ls.flatten.length) := by
  induction ls generalizing p with
  | nil => exact .nil
  | cons l ls ih =>
    obtain ⟨body, h1, h2, h3, h4⟩ := h l (by simp)
    rw [List.flatten_cons, List.append_assoc] at hd
    refine .cons hd (h2 ▸ .lf h1) ?_
    have := ih (fun x hx => h x (by simp [hx])) _ (drop_at _ hd)
    rw [List.flatten_cons, List.length_append, ← Nat.add_assoc]
    exact this

/-- What the table says. -/
def tableEntries : (i p : Nat) → List Obj → List (Nat × Option (Nat × Nat))
  | _, _, [] => []
  | i, p, o :: os => (i, some (p, 0)) :: tableEntries (i + 1) (p + (writeObj i o).length) os

theorem trims_end {t : Bytes} (b : Bytes) (h1 : ∀ c ∈ t.head?, ¬ White c) (h2 : ∀ c ∈ t.getLast?, ¬ White c) (hb : ∀ c ∈ b, White c) : Trims (t ++ b) t :=
  ⟨[], b, rfl, by simp, hb, h1, h2⟩

theorem digits_head {l : Bytes} (h : ∀ c ∈ l, Digit c) (hl : l ≠ []) (r : Bytes) : ∀ c ∈ (l ++ r).head?, ¬ White c := by
  cases l with
  | nil => exact absurd rfl hl
  | cons c cs =>
    intro x hx
    cases hx
    exact digit_not_white (h c (by simp))

theorem entry_line (p : Nat) : EntryLine (padded p 9 ++ asc " 00000 n \n") (some (p, 0)) := by
  obtain ⟨h0, h1, h2⟩ := padded_spec p 9
  have hne : padded p 9 ≠ [] := by intro h; rw [h] at h0; simp at h0
  have : EntryLine (padded p 9 ++ asc " 00000 n \n") (some (Spec.decimal (padded p 9), Spec.decimal (asc "00000"))) := by
    refine .used (p := padded p 9) (g := asc "00000") ⟨[], [32, 10], ?_, by simp, by decide, ?_, ?_⟩ ⟨hne, h1⟩ ⟨by decide, by decide⟩
    · rw [List.nil_append, List.append_assoc]; rfl
    · exact digits_head h1 hne _
    · rw [show padded p 9 ++ 32 :: (asc "00000" ++ [32, 110]) = (padded p 9 ++ 32 :: asc "00000 ") ++ [110] by rw [List.append_assoc]; rfl,
        List.getLast?_concat]
      decide
  rw [h2] at this
  exact this

theorem entries_written (i p : Nat) (objs : List Obj) : Entries i (entryLines i p objs) (tableEntries i p objs) := by
  induction objs generalizing i p with
  | nil => exact .nil
  | cons o os ih => exact .cons (entry_line p) (ih _ _)

theorem entryLines_length (i p : Nat) (objs : List Obj) : (entryLines i p objs).length = objs.length := by
  induction objs generalizing i p with
  | nil => rfl
  | cons o os ih => simp [entryLines, ih]

theorem table_written (objs : List Obj) : Table (tableLines objs) ((0, none) :: tableEntries 1 9 objs) := by
  obtain ⟨h1, h2, h3⟩ := natDigits_spec (objs.length + 1)
  have := Table.section (l := asc "0 " ++ natDigits (objs.length + 1) ++ [10]) (s := [48]) (n := natDigits (objs.length + 1)) (ls := []) (es := [])
    (els := asc "0000000000 65535 f \n" :: entryLines 1 9 objs) (ents := (0, none) :: tableEntries 1 9 objs)
    (trims_end (t := [48] ++ 32 :: natDigits (objs.length + 1)) [10] (by simp; decide) ?_ (by decide)) ⟨by simp, by decide⟩ ⟨h1, h2⟩
    (.cons (.free (p := asc "0000000000") (g := asc "65535") (trims_end (t := asc "0000000000 65535 f") [32, 10] (by decide) (by decide) (by decide)) ⟨by decide, by decide⟩ ⟨by decide, by decide⟩)
      (entries_written _ _ _)) (by simp [entryLines_length, h3]) .nil
  · simpa [tableLines] using this
  · intro c hc
    rw [show [48] ++ 32 :: natDigits (objs.length + 1) = [48, 32] ++ natDigits (objs.length + 1) from rfl, List.getLast?_append_of_ne_nil _ h1] at hc
    exact digit_not_white (h2 c (List.mem_of_getLast? hc))

/-! ### The trailer -/

theorem Spec.Text.and {p ts a b} (h : Spec.Text p ts a b) : ∀ {us c d}, b = c ++ d → Spec.Text (p + a.length) us c d → Spec.Text p (ts ++ us) (a ++ c) d := by
  induction h with
  | nil => intro us c d _ h; simpa using h
  | white hc _ ih =>
    intro us c d hb h
    exact .white hc (ih hb (by convert h using 1; simp; omega))
  | @comment p ts body x a b h1 h2 _ ih =>
    intro us c d hb h
    have := Text.comment h1 h2 (ih (us := us) hb (by convert h using 1; simp; omega))
    simpa using this
  | @tok p t k ts e a b h1 h2 _ ih =>
    intro us c d hb h
    have := Text.tok (p := p) h1 (by rw [List.append_assoc, ← hb]; exact h2) (ih (us := us) hb (by convert h using 1; simp; omega))
    simpa using this

theorem trailer_text (trailer : List (Key × Obj)) (h : WF (.dict trailer)) (p : Nat) (c : Bytes) :
    ∃ pts, pts.map Prod.snd = .kw kwTrailer :: objToks (.dict trailer) ++ [.kw kwStartxref] ∧
      Spec.Text p pts (printToks ([.kw kwTrailer] ++ objToks (.dict trailer)) ++ ([10] ++ kwStartxref)) (10 :: c) := by
  have ht : ∀ t ∈ [Tok.kw kwTrailer] ++ objToks (.dict trailer), Printable t := by
    intro t ht
    rcases List.mem_append.1 ht with ht | ht
    · rw [List.mem_singleton] at ht; subst ht
      exact Or.inr ⟨116, [114, 97, 105, 108, 101, 114], rfl, by decide, by decide, by decide, by decide⟩
    · exact printable_obj _ h t ht
  obtain ⟨pts, g1, g2⟩ := text_print _ ht p (([10] ++ kwStartxref) ++ 10 :: c)
  refine ⟨pts ++ [(p + (printToks ([.kw kwTrailer] ++ objToks (.dict trailer))).length + 1, .kw kwStartxref)], by simp [g1], g2.and rfl (.white (by decide) ?_)⟩
  have := Text.tok (p := p + (printToks ([.kw kwTrailer] ++ objToks (.dict trailer))).length + 1) (e := kwStartxref) (t := .kw kwStartxref) (k := .delimiter) (a := []) (b := 10 :: c)
    (Spells.keyword (c := 115) (cs := [116, 97, 114, 116, 120, 114, 101, 102]) (by decide) (by decide) (by decide) (by decide)) ⟨10, c, rfl, by decide, by decide⟩ .nil
  simpa using this

/-- The trailer in the file. -/
theorem trailer_at (trailer : List (Key × Obj)) (h : WF (.dict trailer)) (x : Nat) : ∃ c l w, writeTrailer trailer x = l ++ w ∧ IsLine l w ∧ kwTrailer <+: l ∧
    writeTrailer trailer x = (printToks ([.kw kwTrailer] ++ objToks (.dict trailer)) ++ ([10] ++ kwStartxref)) ++ 10 :: c := by
  have ht : ∀ t ∈ [Tok.kw kwTrailer] ++ objToks (.dict trailer), Printable t := by
    intro t ht
    rcases List.mem_append.1 ht with ht | ht
    · rw [List.mem_singleton] at ht; subst ht
      exact Or.inr ⟨116, [114, 97, 105, 108, 101, 114], rfl, by decide, by decide, by decide, by decide⟩
    · exact printable_obj _ h t ht
  refine ⟨natDigits x ++ ([10] ++ asc "%%EOF\n"), printToks ([.kw kwTrailer] ++ objToks (.dict trailer)) ++ [10], kwStartxref ++ ([10] ++ (natDigits x ++ ([10] ++ asc "%%EOF\n"))), ?_,
    .lf (noEol_toks _ ht), ?_, ?_⟩
  · simp only [List.append_assoc]; rfl
  · exact ⟨32 :: printToks (objToks (.dict trailer)) ++ [10], by simp [printToks, printTok]⟩
  · simp only [List.append_assoc]; rfl

/-! ### The sections -/

theorem eolFields_ne (w : Bytes) : eolFields w ≠ [] := by
  cases w with
  | nil => simp [eolFields]
  | cons c cs =>
    rw [eolFields]
    split
    · simp
    · split <;> simp

theorem eolFields_split (a b : Bytes) : eolFields (a ++ 10 :: b) = eolFields a ++ eolFields b := by
  induction a with
  | nil => show eolFields (10 :: b) = _; rw [eolFields.eq_def (10 :: b)]; rfl
  | cons c cs ih =>
    rw [List.cons_append, eolFields, eolFields, ih]
    split
    · rfl
    · cases h : eolFields cs with
      | nil => exact absurd h (eolFields_ne cs)
      | cons f fs => rfl

theorem fields_written (objs : List Obj) (trailer : List (Key × Obj)) :
    ∃ first pre, eolFields (writeFile objs trailer) = first :: (pre ++ startxrefWord :: ([] ++ natDigits (writeBody objs).length :: [asc "%%EOF", []])) := by
  have e : writeFile objs trailer = (writeBody objs ++ (asc "xref\n" ++ ((tableLines objs).flatten ++ printToks ([.kw kwTrailer] ++ objToks (.dict trailer))))) ++ 10 ::
    (startxrefWord ++ 10 :: (natDigits (writeBody objs).length ++ 10 :: (asc "%%EOF" ++ 10 :: []))) := by
    simp only [writeFile, writeTrailer, List.append_assoc]
    rfl
  rw [e, eolFields_split, eolFields_cons (by simp) (by unfold NoEol; decide), eolFields_cons (by simp) (noEol_digits (natDigits_spec _).2.1),
    eolFields_cons (by simp) (by unfold NoEol; decide)]
  cases h : eolFields (writeBody objs ++ (asc "xref\n" ++ ((tableLines objs).flatten ++ printToks ([.kw kwTrailer] ++ objToks (.dict trailer))))) with
  | nil => exact absurd h (eolFields_ne _)
  | cons f fs => exact ⟨f, fs, by simp [eolFields]⟩

theorem trims_same {t : Bytes} (h1 : ∀ c ∈ t.head?, ¬ White c) (h2 : ∀ c ∈ t.getLast?, ¬ White c) : Trims t t := ⟨[], [], by simp, by simp, by simp, h1, h2⟩

/-- The sections of a written file: the table, and what the scan finds. -/
theorem written_sections (decode) (objs : List Obj) (trailer : List (Key × Obj)) (ho : ∀ o ∈ objs, Writable o) (ht : WF (.dict trailer))
    (hp : dictGet trailer (.name (asc "Prev")) = none) (hx : dictGet trailer (.name (asc "XRefStm")) = none) :
    Sections decode (writeFile objs trailer) ([⟨tablePos ((0, none) :: tableEntries 1 9 objs), trailer⟩] ++ [⟨scanned (places 1 9 objs), trailer⟩]) := by
  obtain ⟨first, pre, hf⟩ := fields_written objs trailer
  obtain ⟨d1, d2, d3⟩ := natDigits_spec (writeBody objs).length
  obtain ⟨c, l, w, t1, t2, t3, t4⟩ := trailer_at trailer ht (writeBody objs).length
  have hbody : (writeBody objs).length = 9 + (writeObjs 1 objs).length := by simp [writeBody]; rfl
  have h0 : (writeFile objs trailer).drop 0 = asc "%PDF-1.4\n" ++ (writeObjs 1 objs ++ (asc "xref\n" ++ ((tableLines objs).flatten ++ writeTrailer trailer (writeBody objs).length))) := by
    simp only [List.drop_zero, writeFile, writeBody, List.append_assoc]
  have h9 := drop_at _ h0
  have hxr := drop_at _ h9
  have htab := drop_at _ hxr
  have htr := drop_at _ htab
  rw [show 0 + (asc "%PDF-1.4\n").length = 9 from rfl] at h9 hxr htab htr
  rw [← hbody] at hxr htab htr
  rw [show (asc "xref\n").length = 5 from rfl] at htab htr
  obtain ⟨pts, g1, g2⟩ := trailer_text trailer ht ((writeBody objs).length + 5 + (tableLines objs).flatten.length) c
  refine Sections.intact hf (trims_same (by decide) (by decide)) (by simp) (trims_same ?_ ?_) ⟨d1, d2⟩ ?_ ?_ ?_ (.trailer (htr.trans t1) t2 t3 (htr.trans t4) g2 g1 (writes_obj rfl _ ht))
  · have := digits_head d2 d1 []
    rwa [List.append_nil] at this
  · intro x hx
    exact digit_not_white (d2 x (List.mem_of_getLast? hx))
  · intro f hf hs
    have := strip_of_trims hs
    simp only [List.mem_cons, List.not_mem_nil, or_false] at hf
    rcases hf with rfl | rfl
    · revert this; decide
    · revert this; decide
  · rw [d3]
    have := Chain.cons (decode := decode) (data := writeFile objs trailer) (p := (writeBody objs).length) (sec := ⟨tablePos ((0, none) :: tableEntries 1 9 objs), trailer⟩) (a := []) (c := [])
      (.table (l0 := [10]) (w := (tableLines objs).flatten ++ writeTrailer trailer (writeBody objs).length) ⟨hxr, by unfold Blank; decide, .lf (body := []) (by unfold NoEol; decide),
        dull_lines _ _ (dull_table objs) _ _ htab, table_written objs, htr.trans t1, t2, t3, htr.trans t4, g2, g1, writes_obj rfl _ ht⟩)
      (by rw [show dictGet trailer (.name [88, 82, 101, 102, 83, 116, 109]) = none from hx]; exact .nil) (by rw [show dictGet trailer (.name [80, 114, 101, 118]) = none from hp]; exact .nil)
    exact this
  · refine .line (l := asc "%PDF-1.4\n") h0 (.lf (body := asc "%PDF-1.4") (by unfold NoEol; decide)) (by decide) (no_cue_b (by decide)) ?_
    have := region_objs decode (writeFile objs trailer) objs ho 1 9 _ h9 (es := []) (q := (writeBody objs).length + 5 + (tableLines objs).flatten.length)
      (.line (l := asc "xref\n") (w := (tableLines objs).flatten ++ writeTrailer trailer (writeBody objs).length) (hbody ▸ hxr) (.lf (body := asc "xref") (by unfold NoEol; decide)) (by decide) (no_cue_b (by decide))
        (region_dull _ _ _ (dull_table objs) _ _ (hbody ▸ htab) (hbody ▸ .done)))
    rw [List.append_nil] at this
    exact this

/-! ### The objects -/

theorem writeObjs_append (i : Nat) (a b : List Obj) : writeObjs i (a ++ b) = writeObjs i a ++ writeObjs (i + a.length) b := by
  induction a generalizing i with
  | nil => simp [writeObjs]
  | cons o os ih =>
    rw [List.cons_append, writeObjs, writeObjs, ih, List.append_assoc, List.length_cons, show i + 1 + os.length = i + (os.length + 1) by omega]

theorem entries_below (i p : Nat) (objs : List Obj) (j : Int) (hj : j < i) : lastEntry j (places i p objs) = none ∧ lastUsed j (tableEntries i p objs) = none := by
  induction objs generalizing i p with
  | nil => exact ⟨rfl, rfl⟩
  | cons o os ih =>
    obtain ⟨h1, h2⟩ := ih (i + 1) (p + (writeObj i o).length) (by push_cast; omega)
    simp only [places, tableEntries, lastEntry, lastUsed, h1, h2]
    rw [if_neg (by omega), if_neg (by omega)]
    exact ⟨rfl, rfl⟩

/-- Where the objects are. -/
theorem entries_find (i p : Nat) (objs : List Obj) (j : Int) :
    match dictGet (numbered i objs) j with
    | none => lastEntry j (places i p objs) = none ∧ lastUsed j (tableEntries i p objs) = none
    | some o => ∃ a b, objs = a ++ o :: b ∧ j = ↑(i + a.length) ∧ lastEntry j (places i p objs) = some (none, ↑(p + (writeObjs i a).length), 0) ∧
        lastUsed j (tableEntries i p objs) = some (p + (writeObjs i a).length, 0) := by
  induction objs generalizing i p with
  | nil => exact ⟨rfl, rfl⟩
  | cons o os ih =>
    have := ih (i + 1) (p + (writeObj i o).length)
    rw [numbered, dictGet]
    by_cases h : (i : Int) = j
    · subst h
      obtain ⟨h1, h2⟩ := entries_below (i + 1) (p + (writeObj i o).length) os i (by push_cast; omega)
      rw [if_pos rfl]
      refine ⟨[], os, rfl, rfl, ?_, ?_⟩
      · simp [places, lastEntry, h1, writeObjs]
      · simp [tableEntries, lastUsed, h2, writeObjs]
    · rw [if_neg h]
      cases hg : dictGet (numbered (i + 1) os) j with
      | none =>
        rw [hg] at this
        obtain ⟨h1, h2⟩ := this
        simp only [places, tableEntries, lastEntry, lastUsed, h1, h2]
        rw [if_neg h, if_neg h]
        exact ⟨rfl, rfl⟩
      | some x =>
        rw [hg] at this
        obtain ⟨a, b, h1, h2, h3, h4⟩ := this
        refine ⟨o :: a, b, by rw [h1]; rfl, by rw [h2, List.length_cons]; push_cast; ring, ?_, ?_⟩
        · simp only [places, lastEntry, h3, writeObjs, List.length_append, Nat.add_assoc]
        · simp only [tableEntries, lastUsed, h4, writeObjs, List.length_append, Nat.add_assoc]

theorem writable_direct {o : Obj} (h : Writable o) : ∀ j g, o ≠ .ref j g := by
  rintro j g rfl
  exact h

/-- The object in the file. -/
theorem object_written (data : Bytes) (i p : Nat) (o : Obj) (h : Writable o) (tail : Bytes) (hd : data.drop p = writeObj i o ++ tail) : ObjectAt data p i o := by
  by_cases hs : ∃ d b, o = .stream d b
  · obtain ⟨d, body, rfl⟩ := hs
    obtain ⟨h1, h2, h3⟩ := h
    have e : writeObj i (.stream d body) = printToks ([.int i, .int 0, .kw kwObj] ++ objToks (.dict d)) ++ (kwStream ++ ([10] ++ (body ++
      (kwEndstream ++ ([10] ++ (kwEndobj ++ [10])))))) := rfl
    have hd' : data.drop p = printToks ([.int i, .int 0, .kw kwObj] ++ objToks (.dict d)) ++ (kwStream ++ ([10] ++ (body ++
      (kwEndstream ++ ([10] ++ (kwEndobj ++ ([10] ++ tail))))))) := by rw [hd, e]; simp
    obtain ⟨pts, g1, g2⟩ := text_print _ (printable_body i h1) p (kwStream ++ ([10] ++ (body ++ (kwEndstream ++ ([10] ++ (kwEndobj ++ ([10] ++ tail)))))))
    obtain ⟨ets, g3, g4⟩ := text_end (p + (printToks ([.int i, .int 0, .kw kwObj] ++ objToks (.dict d))).length + kwStream.length + [(10 : UInt8)].length + body.length) tail
    exact .stream hd' g2 g1 (writes_obj rfl _ h1) .lf (first_endstream h3 _) (by simp) g3 g4 (stream_unfinished (by simp))
  · have hs : ∀ d b, o ≠ .stream d b := fun d b e => hs ⟨d, b, e⟩
    have hw := wf_of_writable h hs
    rw [writeObj_plain i o hs, List.append_assoc] at hd
    obtain ⟨pts, g1, g2⟩ := text_print _ (printable_whole i hw) p ([10] ++ tail)
    exact .plain hd g2 g1 (writes_obj rfl _ hw)

/-- The objects of a written file. -/
theorem written_objects (decode) (objs : List Obj) (trailer : List (Key × Obj)) (ho : ∀ o ∈ objs, Writable o) :
    FileObjects decode (writeFile objs trailer) ([⟨tablePos ((0, none) :: tableEntries 1 9 objs), trailer⟩] ++ [⟨scanned (places 1 9 objs), trailer⟩]) (numbered 1 objs) := by
  have h9 : (writeFile objs trailer).drop 9 = writeObjs 1 objs ++ (asc "xref\n" ++ ((tableLines objs).flatten ++ writeTrailer trailer (writeBody objs).length)) := by
    have := drop_at (data := writeFile objs trailer) (p := 0) (asc "%PDF-1.4\n") (b := writeObjs 1 objs ++ (asc "xref\n" ++ ((tableLines objs).flatten ++ writeTrailer trailer (writeBody objs).length)))
      (by simp only [List.drop_zero, writeFile, writeBody, List.append_assoc])
    rw [show 0 + (asc "%PDF-1.4\n").length = 9 from rfl] at this
    exact this
  refine ⟨?_, ?_, ?_⟩
  · intro j o hg
    have := entries_find 1 9 objs j
    rw [hg] at this
    obtain ⟨a, b, h1, rfl, h3, h4⟩ := this
    refine .offset (newer := []) (gen := 0) (pos := 9 + (writeObjs 1 a).length) (by push_cast; omega) rfl (by simp) ?_ ?_
    · simp only [tablePos, lastUsed, h4]; rfl
    · rw [h1, writeObjs_append, writeObjs, List.append_assoc, List.append_assoc] at h9
      exact object_written _ _ _ o (ho o (by rw [h1]; simp)) _ (h1 ▸ drop_at _ h9)
  · intro j o hg
    have := entries_find 1 9 objs j
    rw [hg] at this
    obtain ⟨a, b, h1, _⟩ := this
    exact writable_direct (ho o (by rw [h1]; simp))
  · intro j hg sec hsec
    have := entries_find 1 9 objs j
    rw [hg] at this
    obtain ⟨h1, h2⟩ := this
    simp only [List.cons_append, List.nil_append, List.mem_cons, List.not_mem_nil, or_false] at hsec
    rcases hsec with rfl | rfl
    · simp only [tablePos, lastUsed, h2]
      split
      · rename_i e; split at e <;> cases e
      · rfl
    · simp only [scanned, h1]

theorem numbered_get (i : Nat) (objs : List Obj) (k : Nat) : dictGet (numbered i objs) (↑(i + k) : Int) = objs[k]? := by
  induction objs generalizing i k with
  | nil => rfl
  | cons o os ih =>
    rw [numbered, dictGet]
    cases k with
    | zero => rw [if_pos (by simp)]; rfl
    | succ k =>
      rw [if_neg (by push_cast; omega), show i + (k + 1) = i + 1 + k by omega, ih]
      rfl

theorem numbered_none (i : Nat) (objs : List Obj) (j : Int) (h : j < i ∨ (i + objs.length : Nat) ≤ j) : dictGet (numbered i objs) j = none := by
  induction objs generalizing i with
  | nil => rfl
  | cons o os ih =>
    rw [numbered, dictGet]
    simp only [List.length_cons] at h
    rw [if_neg (by push_cast at h; omega)]
    exact ih (i + 1) (by push_cast at h ⊢; omega)

theorem rest_sections (decode) (objs : List Obj) (trailer : List (Key × Obj)) (ho : ∀ o ∈ objs, Writable o) (ht : WF (.dict trailer))
    (hs : ∀ f ∈ (eolFields (writeRest objs trailer)).tail, ¬ Trims f startxrefWord) :
    Sections decode (writeRest objs trailer) [⟨scanned (places 1 9 objs), trailer⟩] := by
  have hbody : (writeBody objs).length = 9 + (writeObjs 1 objs).length := by simp [writeBody]; rfl
  have h0 : (writeRest objs trailer).drop 0 = asc "%PDF-1.4\n" ++ (writeObjs 1 objs ++ (printToks ([.kw (asc "trailer")] ++ objToks (.dict trailer)) ++ [10])) := by
    simp only [List.drop_zero, writeRest, writeBody, List.append_assoc]
  have h9 := drop_at _ h0
  have htr := drop_at _ h9
  rw [show 0 + (asc "%PDF-1.4\n").length = 9 from rfl] at h9 htr
  have htp : ∀ t ∈ [Tok.kw kwTrailer] ++ objToks (.dict trailer), Printable t := by
    intro t ht'
    rcases List.mem_append.1 ht' with ht' | ht'
    · rw [List.mem_singleton] at ht'; subst ht'
      exact Or.inr ⟨116, [114, 97, 105, 108, 101, 114], rfl, by decide, by decide, by decide, by decide⟩
    · exact printable_obj _ ht t ht'
  obtain ⟨pts, g1, g2⟩ := text_print _ htp (9 + (writeObjs 1 objs).length) [10]
  refine Sections.lost hs (q := 9 + (writeObjs 1 objs).length) ?_ (.last (l := printToks ([.kw kwTrailer] ++ objToks (.dict trailer)) ++ [10]) (w := []) (pts := pts) (ts := objToks (.dict trailer))
    (htr.trans (by rw [List.append_nil]; rfl)) (.lf (noEol_toks _ htp)) ⟨32 :: printToks (objToks (.dict trailer)) ++ [10], by simp [printToks, printTok]⟩ ?_ g1 (writes_obj rfl _ ht))
  · refine .line (l := asc "%PDF-1.4\n") h0 (.lf (body := asc "%PDF-1.4") (by unfold NoEol; decide)) (by decide) (no_cue_b (by decide)) ?_
    have := region_objs decode (writeRest objs trailer) objs ho 1 9 _ h9 (es := []) .done
    rw [List.append_nil] at this
    exact this
  · rw [htr]
    have := Spec.Text.and g2 (us := []) (c := [10]) (d := []) rfl (.white (by decide) .nil)
    rw [List.append_nil] at this
    exact this

theorem rest_objects (decode) (objs : List Obj) (trailer : List (Key × Obj)) (ho : ∀ o ∈ objs, Writable o) :
    FileObjects decode (writeRest objs trailer) [⟨scanned (places 1 9 objs), trailer⟩] (numbered 1 objs) := by
  have h9 : (writeRest objs trailer).drop 9 = writeObjs 1 objs ++ (printToks ([.kw (asc "trailer")] ++ objToks (.dict trailer)) ++ [10]) := by
    have := drop_at (data := writeRest objs trailer) (p := 0) (asc "%PDF-1.4\n") (b := writeObjs 1 objs ++ (printToks ([.kw (asc "trailer")] ++ objToks (.dict trailer)) ++ [10]))
      (by simp only [List.drop_zero, writeRest, writeBody, List.append_assoc])
    rw [show 0 + (asc "%PDF-1.4\n").length = 9 from rfl] at this
    exact this
  refine ⟨?_, ?_, ?_⟩
  · intro j o hg
    have := entries_find 1 9 objs j
    rw [hg] at this
    obtain ⟨a, b, h1, rfl, h3, h4⟩ := this
    refine .offset (newer := []) (gen := 0) (pos := 9 + (writeObjs 1 a).length) (by push_cast; omega) rfl (by simp) ?_ ?_
    · simp only [scanned, h3]
    · rw [h1, writeObjs_append, writeObjs, List.append_assoc, List.append_assoc] at h9
      exact object_written _ _ _ o (ho o (by rw [h1]; simp)) _ (h1 ▸ drop_at _ h9)
  · intro j o hg
    have := entries_find 1 9 objs j
    rw [hg] at this
    obtain ⟨a, b, h1, _⟩ := this
    exact writable_direct (ho o (by rw [h1]; simp))
  · intro j hg sec hsec
    have := entries_find 1 9 objs j
    rw [hg] at this
    rw [List.mem_singleton] at hsec
    subst hsec
    simp only [scanned, this.1]

/-- A document with the objects `objs`, numbered from 1 on: it can be opened, the catalog is the dictionary that `Root` refers to, every object is read
back as it was, and there are no other objects. -/
def Spec.ReadBack (S : Setup) (password : Option PyStr) (caching : Bool) (data : Bytes) (objs : List Obj) (catalog : List (Key × Obj)) : Prop :=
  ∃ N, ∀ fuel ≥ N, ∃ O, openDocument S password caching fuel data = .ok O ∧ O.catalog = catalog ∧
    (∀ (k : Nat) o, objs[k]? = some o → (O.resolver caching fuel).getobj (k + 1) = .ok o) ∧
    (∀ j : Int, j < 0 ∨ objs.length < j → (O.resolver caching fuel).getobj j = .error .pdfObjectNotFound)

theorem read_back (S : Setup) (hb : 0 < S.bufsiz) (data : Bytes) (secs : List Sec) (after : List (List (Key × Obj))) (objs : List Obj) (trailer : List (Key × Obj)) 
    (hsec : Sections S.fileDecode data secs) (hobj : FileObjects S.fileDecode data secs (numbered 1 objs)) (htr : secs.map Sec.trailer = [] ++ trailer :: after) (he : dictGet trailer (nm "Encrypt") = none)
    (hi : ∀ g, dictGet trailer (nm "Info") ≠ some (.ref 0 g)) {r : Nat} {g : Int} {catalog : List (Key × Obj)} (hr : dictGet trailer (nm "Root") = some (.ref (r + 1 : Nat) g))
    (hc : objs[r]? = some (.dict catalog)) (password : Option PyStr) (caching : Bool) :
    ReadBack S password caching data objs catalog := by
  have hroot : (fileResolver (numbered 1 objs)).resolve1 (.ref (r + 1 : Nat) g) = .ok (.dict catalog) := by
    have := numbered_get 1 objs r
    rw [Nat.add_comm] at this
    simp only [fileResolver]
    rw [if_neg (by push_cast; omega), this, hc]
    rfl
  obtain ⟨N, hN⟩ := document_open (S := S) hb hsec hobj (before := []) (t := trailer) (after := after) htr
    (by simp) hr (by simpa using he) (by
      intro x hx v hv
      rw [List.nil_append, List.mem_singleton] at hx
      subst hx
      cases v with
      | ref i g => exact ⟨_, if_neg (fun e => hi g (by rw [hv, e]))⟩
      | _ => exact ⟨_, rfl⟩) hroot password caching
  refine ⟨N, fun fuel hf => ?_⟩
  obtain ⟨O, h1, _, h2, h3⟩ := hN fuel hf
  refine ⟨O, h1, h2, ?_, ?_⟩
  · intro k o hk
    have := numbered_get 1 objs k
    rw [h3]
    simp only [fileResolver]
    rw [if_neg (by omega), show ((k : Int) + 1) = ↑(1 + k) by push_cast; omega, this, hk]
  · intro j hj
    rw [h3]
    simp only [fileResolver]
    rw [if_neg (by omega), numbered_none 1 objs j (by push_cast; omega)]


/-- **C91.** A file written with the objects `objs`, numbered from 1 on, a cross-reference table and the trailer is read back. -/
theorem written_file (S : Setup) (hb : 0 < S.bufsiz) (objs : List Obj) (trailer : List (Key × Obj)) (ho : ∀ o ∈ objs, Writable o) (ht : WF (.dict trailer))
    (hp : dictGet trailer (nm "Prev") = none) (hx : dictGet trailer (nm "XRefStm") = none) (he : dictGet trailer (nm "Encrypt") = none)
    (hi : ∀ g, dictGet trailer (nm "Info") ≠ some (.ref 0 g)) {r : Nat} {g : Int} {catalog : List (Key × Obj)} (hr : dictGet trailer (nm "Root") = some (.ref (r + 1 : Nat) g))
    (hc : objs[r]? = some (.dict catalog)) (password : Option PyStr) (caching : Bool) : ReadBack S password caching (writeFile objs trailer) objs catalog :=
  read_back S hb _ _ [trailer] objs trailer (written_sections S.fileDecode objs trailer ho ht hp hx) (written_objects S.fileDecode objs trailer ho) rfl he hi hr hc password caching

/-- **C91, damaged files.** The same if the file has lost its cross-reference table and all that follows the trailer dictionary. -/
theorem recovered_file (S : Setup) (hb : 0 < S.bufsiz) (objs : List Obj) (trailer : List (Key × Obj)) (ho : ∀ o ∈ objs, Writable o) (ht : WF (.dict trailer))
    (hs : ∀ f ∈ (eolFields (writeRest objs trailer)).tail, ¬ Trims f startxrefWord) (he : dictGet trailer (nm "Encrypt") = none)
    (hi : ∀ g, dictGet trailer (nm "Info") ≠ some (.ref 0 g)) {r : Nat} {g : Int} {catalog : List (Key × Obj)} (hr : dictGet trailer (nm "Root") = some (.ref (r + 1 : Nat) g))
    (hc : objs[r]? = some (.dict catalog)) (password : Option PyStr) (caching : Bool) : ReadBack S password caching (writeRest objs trailer) objs catalog :=
  read_back S hb _ _ [] objs trailer (rest_sections S.fileDecode objs trailer ho ht hs) (rest_objects S.fileDecode objs trailer ho) rfl he hi hr hc password caching

/-- Three objects: a catalog, an array and a stream. -/
def sampleObjs : List Obj := [.dict [(nm "Type", .name (asc "Catalog"))], .arr [.int 7, .ref 3 0], .stream [(nm "Length", .int 2)] (asc "ab")]

example : (∀ o ∈ sampleObjs, Writable o) ∧ WF (.dict [(nm "Root", Obj.ref 1 0)]) ∧ dictGet [(nm "Root", Obj.ref 1 0)] (nm "Prev") = (none : Option Obj) ∧
    dictGet [(nm "Root", Obj.ref 1 0)] (nm "XRefStm") = (none : Option Obj) ∧ dictGet [(nm "Root", Obj.ref 1 0)] (nm "Encrypt") = (none : Option Obj) ∧
    (∀ g, dictGet [(nm "Root", Obj.ref 1 0)] (nm "Info") ≠ some (.ref 0 g)) ∧ dictGet [(nm "Root", Obj.ref 1 0)] (nm "Root") = some (Obj.ref (0 + 1 : Nat) 0) ∧
    sampleObjs[0]? = some (.dict [(nm "Type", .name (asc "Catalog"))]) ∧
    ∀ f ∈ (eolFields (writeRest sampleObjs [(nm "Root", Obj.ref 1 0)])).tail, ¬ Trims f startxrefWord := by
  refine ⟨?_, ⟨by decide, ⟨_, rfl⟩, trivial, trivial⟩, rfl, rfl, rfl, ?_, rfl, rfl, ?_⟩
  · intro o ho
    simp only [sampleObjs, List.mem_cons, List.not_mem_nil, or_false] at ho
    rcases ho with rfl | rfl | rfl
    · exact ⟨by decide, ⟨_, rfl⟩, trivial, trivial⟩
    · exact ⟨trivial, trivial, trivial⟩
    · exact ⟨⟨by decide, ⟨_, rfl⟩, trivial, trivial⟩, by decide +kernel, by decide⟩
  · intro g h
    have : dictGet [(nm "Root", Obj.ref 1 0)] (nm "Info") = none := rfl
    rw [this] at h
    cases h
  · intro f hf ht
    have h := strip_of_trims ht
    revert f
    have : ∀ f ∈ (eolFields (writeRest sampleObjs [(nm "Root", Obj.ref 1 0)])).tail, strip f ≠ startxrefWord := by decide +kernel
    exact fun f hf _ h => this f hf h

end Pdf

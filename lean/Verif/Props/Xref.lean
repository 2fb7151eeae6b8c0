import Verif.Proofs.Xref
import Verif.Props.Stream
/-! C29 finding the cross-reference section; C23 reading a cross-reference table. -/

namespace Pdf
open Spec

variable {σ : Type}

/-! ### `startxref` -/

theorem eolFields_noEol {w : Bytes} (h : NoEol w) : eolFields w = [w] := by
  induction w with
  | nil => rfl
  | cons c cs ih =>
    obtain ⟨h1, h2⟩ := noEol_cons.1 h
    rw [eolFields, if_neg (by rintro (e | e) <;> simp_all), ih h2]

theorem eolFields_cons {c : UInt8} (hc : c = 10 ∨ c = 13) {w : Bytes} (h : NoEol w) (r : Bytes) :
    eolFields (w ++ c :: r) = w :: eolFields r := by
  induction w with
  | nil => rw [List.nil_append, eolFields, if_pos hc]
  | cons d ds ih =>
    obtain ⟨h1, h2⟩ := noEol_cons.1 h
    rw [List.cons_append, eolFields, if_neg (by rintro (e | e) <;> simp_all), ih h2]

theorem eolFields_pieces (ps : List Bytes) (hp : ∀ x ∈ ps, Piece x) {head : Bytes} (h : NoEol head) :
    eolFields (head ++ ps.flatten) = head :: ps.map List.tail := by
  induction ps generalizing head with
  | nil => simpa using eolFields_noEol h
  | cons x xs ih =>
    obtain ⟨c, r, rfl, hc, hr⟩ := hp x (by simp)
    rw [List.flatten_cons, List.cons_append, eolFields_cons (by simpa using hc) h, ih (fun y hy => hp y (by simp [hy])) hr]
    rfl

/-- `findLoop` on stripped lines. -/
def findS : List Bytes → Option Bytes → Except PyErr (Option Bytes)
  | [], _ => .error .pdfNoValidXRef
  | l :: ls, prev => if l = kwStartxref then .ok prev else findS ls (if l = [] then prev else some l)

theorem findLoop_eq (ls : List Bytes) (prev) : findLoop ls prev = findS (ls.map strip) prev := by
  induction ls generalizing prev with
  | nil => rfl
  | cons l ls ih => rw [findLoop, List.map_cons, findS, ih]

theorem findS_skip (ls rest : List Bytes) (h : kwStartxref ∉ ls) (prev) : ∃ p, findS (ls ++ rest) prev = findS rest p := by
  induction ls generalizing prev with
  | nil => exact ⟨prev, rfl⟩
  | cons l ls ih =>
    simp only [List.mem_cons, not_or] at h
    rw [List.cons_append, findS, if_neg (fun e => h.1 e.symm)]
    exact ih h.2 _

theorem findS_blank (ls rest : List Bytes) (h : ∀ l ∈ ls, l = []) (prev) : findS (ls ++ rest) prev = findS rest prev := by
  induction ls with
  | nil => rfl
  | cons l ls ih =>
    rw [List.cons_append, findS, h l (by simp), if_neg (by decide), if_pos rfl]
    exact ih fun x hx => h x (by simp [hx])

theorem findXref_fields (b : Nat) (hb : 0 < b) (data : Bytes) :
    findLoop (revreadlines b data) none = findS ((eolFields data).tail.reverse.map strip) none := by
  obtain ⟨h1, head, h2, h3⟩ := revreadlines_suffix b hb data
  rw [findLoop_eq]
  conv => rhs; rw [h3, eolFields_pieces _ (fun x hx => h1 x (by simpa using hx)) h2]
  rw [List.tail_cons, ← List.map_reverse, List.reverse_reverse, List.map_map]
  congr 1
  refine List.map_congr_left fun x hx => ?_
  obtain ⟨c, r, rfl, hc, _⟩ := h1 x hx
  exact strip_cons (by rcases hc with rfl | rfl <;> decide) r

/-- C29. If the file has, after its first line, a line `startxref` (with white space around it), then blank lines, a line with a
number, and after that no line `startxref` any more, `find_xref` returns that number. -/
theorem find_last_startxref (b : Nat) (hb : 0 < b) (data : Bytes) (first : Bytes) (pre mid post : List Bytes) (s n ds : Bytes)
    (hf : eolFields data = first :: (pre ++ s :: (mid ++ n :: post))) (hs : Trims s startxrefWord) (hmid : ∀ f ∈ mid, Blank f)
    (hn : Trims n ds) (hds : Num ds) (hpost : ∀ f ∈ post, ¬ Trims f startxrefWord) :
    findXref b data = .ok (decimal ds) := by
  change Trims s kwStartxref at hs
  change ∀ f ∈ post, ¬ Trims f kwStartxref at hpost
  unfold findXref
  rw [findXref_fields b hb, hf]
  have e : (List.tail (first :: (pre ++ s :: (mid ++ n :: post)))).reverse.map strip =
      post.reverse.map strip ++ (ds :: (mid.reverse.map strip ++ (kwStartxref :: pre.reverse.map strip))) := by
    simp [strip_of_trims hs, strip_of_trims hn]
  rw [e]
  obtain ⟨p, hp⟩ := findS_skip (post.reverse.map strip) (ds :: (mid.reverse.map strip ++ (kwStartxref :: pre.reverse.map strip))) (by
    intro h
    simp only [List.map_reverse, List.mem_reverse, List.mem_map] at h
    obtain ⟨f, hf, e⟩ := h
    exact hpost f hf (e ▸ trims_strip f)) none
  have hne : ds ≠ kwStartxref := by
    rintro rfl
    exact absurd (hds.2 115 (by decide)) (by decide)
  rw [hp, findS, if_neg hne, if_neg hds.1, findS_blank _ _ (by
    intro l hl
    simp only [List.map_reverse, List.mem_reverse, List.mem_map] at hl
    obtain ⟨f, hf, rfl⟩ := hl
    exact strip_blank.2 (hmid f hf)), findS, if_pos rfl]
  exact pyInt_num hds

/-- C29. A file without a line `startxref` after its first line is reported as having no cross-reference section. -/
theorem no_startxref (b : Nat) (hb : 0 < b) (data : Bytes) (h : ∀ f ∈ (eolFields data).tail, ¬ Trims f startxrefWord) :
    findXref b data = .error .pdfNoValidXRef := by
  change ∀ f ∈ (eolFields data).tail, ¬ Trims f kwStartxref at h
  unfold findXref
  rw [findXref_fields b hb]
  obtain ⟨p, hp⟩ := findS_skip ((eolFields data).tail.reverse.map strip) [] (by
    intro hm
    simp only [List.map_reverse, List.mem_reverse, List.mem_map] at hm
    obtain ⟨f, hf, e⟩ := hm
    exact h f hf (e ▸ trims_strip f)) none
  rw [List.append_nil] at hp
  rw [hp]
  rfl

/-- The first line of the file is not looked at, -/
theorem startxref_first_line : findXref 4096 [115, 116, 97, 114, 116, 120, 114, 101, 102, 10, 55, 10] = .error .pdfNoValidXRef := by decide +kernel
/-- and a file that ends with `startxref` makes `find_xref` raise `TypeError` (`int(None)`), not `PDFNoValidXRef`. -/
theorem startxref_without_number : findXref 4096 [10, 115, 116, 97, 114, 116, 120, 114, 101, 102, 10] = .error .typeError := by decide +kernel

/-- `%P LF startxref CR LF 12 LF %%EOF` -/
example : findXref 5 [37, 80, 10, 115, 116, 97, 114, 116, 120, 114, 101, 102, 13, 10, 49, 50, 10, 37, 37, 69, 79, 70] = .ok 12 :=
  find_last_startxref 5 (by decide) _ [37, 80] [] [[]] [[37, 37, 69, 79, 70]] kwStartxref [49, 50] [49, 50] (by decide)
    ⟨[], [], by decide, by decide, by decide, by decide, by decide⟩ (by simp [Blank])
    ⟨[], [], by decide, by decide, by decide, by decide, by decide⟩ ⟨by decide, by decide⟩ (by
      intro f hf; simp only [List.mem_singleton] at hf; subst hf
      intro h; exact absurd (strip_of_trims h) (by decide))

/-! ### Tables -/

/-- The offsets a table leads to. -/
def addEntries (offs : List (Int × XPos)) : List (Nat × Option (Nat × Nat)) → List (Int × XPos)
  | [] => offs
  | (_, none) :: es => addEntries offs es
  | (i, some (p, g)) :: es => addEntries (dictSet offs i (none, p, g)) es

theorem addEntries_append (offs) (a b : List (Nat × Option (Nat × Nat))) : addEntries offs (a ++ b) = addEntries (addEntries offs a) b := by
  induction a generalizing offs with
  | nil => rfl
  | cons x xs ih =>
    obtain ⟨i, _ | ⟨p, g⟩⟩ := x <;> simp only [List.cons_append, addEntries, ih]

theorem dictGet_dictSet {κ α : Type} [DecidableEq κ] (d : List (κ × α)) (k k' : κ) (v : α) :
    dictGet (dictSet d k v) k' = if k = k' then some v else dictGet d k' := by
  induction d with
  | nil => rfl
  | cons x xs ih =>
    obtain ⟨a, w⟩ := x
    unfold dictSet
    by_cases h : a = k
    · rw [if_pos h]; subst h
      simp only [dictGet]
      split <;> rfl
    · rw [if_neg h]
      simp only [dictGet, ih]
      by_cases h2 : a = k'
      · subst h2; rw [if_pos rfl, if_pos rfl, if_neg (fun e => h e.symm)]
      · rw [if_neg h2, if_neg h2]

theorem addEntries_get (es : List (Nat × Option (Nat × Nat))) (offs) (i : Int) :
    dictGet (addEntries offs es) i = match lastUsed i es with
      | some (p, g) => some (none, (p : Int), (g : Int))
      | none => dictGet offs i := by
  induction es generalizing offs with
  | nil => rfl
  | cons x xs ih =>
    obtain ⟨j, _ | ⟨p, g⟩⟩ := x
    · simp only [addEntries, lastUsed]
      rw [ih]
      cases h : lastUsed i xs with
      | some y => rfl
      | none => dsimp only; rw [ite_self]
    · simp only [addEntries, lastUsed]
      rw [ih]
      cases h : lastUsed i xs with
      | some y => rfl
      | none =>
        dsimp only
        rw [dictGet_dictSet]
        split <;> rfl

theorem Spec.LinesAt.split {data p} (a : List Bytes) {c q} (h : LinesAt data p (a ++ c) q) : ∃ m, LinesAt data p a m ∧ LinesAt data m c q := by
  induction a generalizing p with
  | nil => exact ⟨p, .nil, h⟩
  | cons l ls ih =>
    cases h with
    | cons h1 h2 h3 =>
      obtain ⟨m, h4, h5⟩ := ih h3
      exact ⟨m, .cons h1 h2 h4, h5⟩

theorem loadEntries_ok {b : Nat} (hb : 0 < b) (data : Bytes) {i ls es} (h : Entries i ls es) {p q : Nat} (hl : LinesAt data p ls q) {ps : PSt}
    (hr : Ready data p ps) (offs) :
    ∃ ps', loadEntries b ls.length i ps offs = .ok (ps', addEntries offs es) ∧ Ready data q ps' := by
  induction h generalizing p ps offs with
  | nil => cases hl; exact ⟨ps, rfl, hr⟩
  | @cons i l e ls es he _ ih =>
    cases hl with
    | cons h1 h2 h3 =>
      obtain ⟨ps1, g1, g2⟩ := hr.line hb h1 h2
      rw [List.length_cons, loadEntries, g1]
      dsimp only
      cases he with
      | used ht hp hg =>
        rw [strip_of_trims ht, splitSp_cons (num_nosp hp), splitSp_cons (num_nosp hg), splitSp_free (by decide)]
        dsimp only
        rw [if_neg (by decide), pyInt_num hp]
        dsimp only
        rw [pyInt_num hg]
        dsimp only
        rw [show ((i : Int) + 1) = ((i + 1 : Nat) : Int) by simp]
        exact ih h3 g2 _
      | free ht hp hg =>
        rw [strip_of_trims ht, splitSp_cons (num_nosp hp), splitSp_cons (num_nosp hg), splitSp_free (by decide)]
        dsimp only
        rw [if_pos (by decide), show ((i : Int) + 1) = ((i + 1 : Nat) : Int) by simp]
        exact ih h3 g2 _

theorem num_head {ds : Bytes} (h : Num ds) : ∃ c cs, ds = c :: cs ∧ Digit c := by
  cases ds with
  | nil => exact absurd rfl h.1
  | cons c cs => exact ⟨c, cs, rfl, h.2 c (by simp)⟩

theorem not_trailer {l t : Bytes} (h : Trims l t) {c cs} (ht : t = c :: cs) (hc : Digit c) : kwTrailer.isPrefixOf l = false := by
  obtain ⟨a, b, rfl, ha, _⟩ := h
  subst ht
  cases a with
  | nil =>
    rw [← Bool.not_eq_true]
    intro h
    simp [kwTrailer, List.isPrefixOf] at h
    obtain ⟨rfl, _⟩ := h
    revert hc; decide
  | cons x xs =>
    rw [← Bool.not_eq_true]
    intro h
    simp [kwTrailer, List.isPrefixOf] at h
    obtain ⟨rfl, _⟩ := h
    exact absurd (ha 116 (by simp)) (by decide)

theorem loadTable_ok {b : Nat} (hb : 0 < b) (data : Bytes) {ls es} (h : Table ls es) {p q : Nat} (tl more : Bytes) (hl : LinesAt data p ls q)
    (htl : data.drop q = tl ++ more) (hline : IsLine tl more) (htr : kwTrailer <+: tl) {ps : PSt} (hr : Ready data p ps) (offs) (fuel : Nat)
    (hf : ls.length < fuel) : loadTable b fuel ps offs = .ok (q, addEntries offs es) := by
  induction h generalizing p ps offs fuel with
  | nil =>
    cases hl
    obtain ⟨f, rfl⟩ : ∃ f, fuel = f + 1 := ⟨fuel - 1, by simp at hf; omega⟩
    obtain ⟨ps1, g1, g2⟩ := hr.line hb htl hline
    rw [loadTable, g1]
    dsimp only
    obtain ⟨r, rfl⟩ := htr
    rw [if_neg (by
      rw [strip_blank]; intro h
      exact absurd (h 116 (by simp [kwTrailer])) (by decide)), if_pos (by simp)]
    rfl
  | blank hbl _ ih =>
    obtain ⟨f, rfl⟩ : ∃ f, fuel = f + 1 := ⟨fuel - 1, by simp at hf; omega⟩
    cases hl with
    | cons h1 h2 h3 =>
      obtain ⟨ps1, g1, g2⟩ := hr.line hb h1 h2
      rw [loadTable, g1]
      dsimp only
      rw [if_pos (strip_blank.2 hbl)]
      exact ih h3 g2 _ _ (by simpa using hf)
  | @«section» l s n els ents ls es ht hs hn he hlen _ ih =>
    obtain ⟨f, rfl⟩ : ∃ f, fuel = f + 1 := ⟨fuel - 1, by simp at hf; omega⟩
    cases hl with
    | cons h1 h2 h3 =>
      obtain ⟨m, h4, h5⟩ := LinesAt.split els h3
      obtain ⟨ps1, g1, g2⟩ := hr.line hb h1 h2
      obtain ⟨c, cs, e, hc⟩ := num_head hs
      rw [loadTable, g1]
      dsimp only
      rw [strip_of_trims ht, if_neg (by simp), if_neg (by rw [not_trailer ht (by rw [e]; rfl) hc]; decide),
        splitSp_cons (num_nosp hs), splitSp_free (num_nosp hn)]
      dsimp only
      rw [pyInt_num hs, pyInt_num hn]
      dsimp only
      rw [Int.toNat_natCast, ← hlen]
      obtain ⟨ps2, g3, g4⟩ := loadEntries_ok hb data he h4 g2 offs
      rw [g3]
      dsimp only
      rw [addEntries_append]
      exact ih h5 g4 _ _ (by simp at hf; omega)

/-- `nextobjectG` is `nextobjectF` with the state. -/
theorem nextobjectG_fst (env : Env σ) (b fuel : Nat) (ps : PSt) (st : StackSt) (s : σ) :
    ((nextobjectG env b fuel ps st s).1, (nextobjectG env b fuel ps st s).2.2) = nextobjectF env b fuel ps st s := by
  induction fuel generalizing ps st s with
  | zero => rfl
  | succ fuel ih =>
    unfold nextobjectG nextobjectF
    cases st.results with
    | cons r rs => rfl
    | nil =>
      dsimp only
      rcases ps.nexttoken b with ⟨_ | ⟨pos, tok⟩, ps'⟩
      · rfl
      · dsimp only
        rcases fileStep env b ps' st pos tok s with ⟨_ | ⟨ps2, st2⟩, s2⟩
        · rfl
        · exact ih ps2 st2 s2

theorem dictSet_fresh {κ α : Type} [DecidableEq κ] (d : List (κ × α)) (k : κ) (v : α) (h : k ∉ d.map Prod.fst) : dictSet d k v = d ++ [(k, v)] := by
  induction d with
  | nil => rfl
  | cons x xs ih =>
    obtain ⟨a, w⟩ := x
    simp only [List.map_cons, List.mem_cons, not_or] at h
    rw [dictSet, if_neg (fun e => h.1 e.symm), ih h.2]
    rfl

theorem dictUpdate_nodup {κ α : Type} [DecidableEq κ] (d e : List (κ × α)) (h : ((d ++ e).map Prod.fst).Nodup) : dictUpdate d e = d ++ e := by
  induction e generalizing d with
  | nil => simp [dictUpdate]
  | cons x xs ih =>
    obtain ⟨k, v⟩ := x
    rw [dictUpdate, dictSet_fresh, ih]
    · simp
    · simpa using h
    · rw [List.map_append, List.nodup_append] at h
      intro hk
      exact h.2.2 k hk k (by simp) rfl

theorem writes_dict_nodup {D : Dialect} {ts d} (h : Writes D ts (.dict d)) : (d.map Prod.fst).Nodup := by
  cases h with
  | dict _ _ h3 => rw [h3.1]; exact nodup_firsts _

theorem feed_startxref (st : StackSt) (q : Nat) (x : Nat × Obj) (hs : st.curstack = [x]) :
    st.feed fileHooks q (.kw kwStartxref) = .ok { st with curstack := [], results := st.results ++ [x] } := by
  obtain ⟨ctx, ty, cs, rs⟩ := st
  dsimp only at hs; subst hs
  have : StackSt.feedBody fileHooks ⟨ctx, ty, [x], rs⟩ q (.kw kwStartxref) = .ok ⟨ctx, ty, [], rs ++ [x]⟩ := by
    simp [StackSt.feedBody, fileHooks, fileKeyword, kwStartxref, StackSt.pop]
  rw [StackSt.feed, this]
  simp only [Hooks.settle]
  split <;> rfl

/-- The trailer: the word `trailer`, a dictionary in any spelling, the word `startxref`. -/
theorem loadTrailer_ok (env : Env σ) (henv : env.Direct) {b : Nat} (hb : 0 < b) (data : Bytes) (q : Nat) (pre rest : Bytes) (pts : List (Nat × Tok))
    (ts : List Tok) (d : List (Key × Obj)) (fuel : Nat) (s : σ) (hdata : data.drop q = pre ++ rest) (ht : Text q pts pre rest)
    (hp : pts.map Prod.snd = .kw kwTrailer :: ts ++ [.kw kwStartxref]) (hw : Writes fileDialect ts (.dict d)) (hfuel : ts.length + 2 ≤ fuel) :
    ∃ ps, loadTrailer env b fuel data q s = (.ok d, ps, s) := by
  have hlex : lexRun {} q (data.drop q) = Stream.pre pts (lexRun {} (q + pre.length) rest) := by rw [hdata, run_text ht]
  obtain ⟨p1, pts2, rfl, hp2⟩ := map_snd_cons (by simpa using hp)
  unfold loadTrailer
  have h1 := nexttoken_spec hb (PSt.seek data q) (inv_seek data q)
  rw [stream_seek, hlex] at h1
  have hd := nexttoken_data b (PSt.seek data q)
  generalize (PSt.seek data q).nexttoken b = r at *
  obtain ⟨r, ps1⟩ := r
  obtain ⟨g1, g2, g3⟩ := h1
  dsimp only at g1 g2 g3 hd
  subst g2
  dsimp only
  rw [if_neg (by simp)]
  have hF := nextobjectF_eq hb env fuel ps1 {} g1 s
  rw [g3, hd] at hF
  have hA : ∃ n, nextA env (PSt.seek data q).data fuel (pts2 ++ (lexRun {} (q + pre.length) rest).1, (lexRun {} (q + pre.length) rest).2) {} s =
      (.ok (n, .dict d), s) := by
    obtain ⟨pts3, pts4, rfl, hp3, hp4⟩ := map_snd_append hp2
    obtain ⟨q4, r4, rfl, hr4⟩ := map_snd_cons hp4
    have : r4 = [] := by simpa using hr4
    subst this
    obtain ⟨q', hq⟩ := pushes speaks_file hw {} pts3 (Or.inr fun _ => rfl) hp3
    have hl2 : pts3.length = ts.length := by rw [← hp3]; simp
    have hns : .kw kwStream ∉ pts3.map Prod.snd := by rw [hp3]; exact writes_no_stream hw
    obtain ⟨f, rfl⟩ : ∃ f, fuel = f + 1 + 1 + pts3.length := ⟨fuel - 2 - ts.length, by omega⟩
    generalize lexRun {} (q + pre.length) rest = S
    rw [List.append_assoc, nextA_feedAll env _ pts3 _ _ _ hq rfl hns s]
    rw [nextA.eq_def]
    dsimp only
    simp only [StackSt.push, List.nil_append, List.cons_append]
    rw [if_neg (by decide), feed_startxref _ q4 (q', .dict d) rfl]
    dsimp only
    rw [nextA.eq_def]
    exact ⟨_, rfl⟩
  obtain ⟨n, hA⟩ := hA
  replace hF := hF.trans hA
  have hG := nextobjectG_fst env b fuel ps1 {} s
  rw [hF] at hG
  generalize nextobjectG env b fuel ps1 {} s = G at *
  obtain ⟨G1, G2, G3⟩ := G
  obtain ⟨rfl, rfl⟩ := Prod.mk.inj hG
  dsimp only
  unfold Env.dictValue
  rw [henv _ _ (by simp)]
  exact ⟨_, rfl⟩

end Pdf

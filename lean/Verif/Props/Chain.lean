import Verif.Props.Stream2
import Verif.Props.XrefStream
import Mathlib.Data.List.Forall2
/-! C24: cross-reference streams in a file. C68: the chain of cross-reference sections and what a document looks up in it. -/

namespace Pdf
open Spec Props

variable {σ : Type}

/-- The stream object `i g obj << d >> stream payload endstream endobj` at offset `pos`, with the right `Length`. -/
structure StreamAt (data : Bytes) (pos : Nat) (i g : Int) (d : List (Key × Obj)) (payload pre eol gap rest mid tail : Bytes) (r ets : List (Nat × Tok))
    (ts : List Tok) : Prop where
  place : data.drop pos = pre ++ (kwStream ++ (eol ++ (payload ++ gap ++ (kwEndstream ++ rest))))
  text : Text pos ((pos, .int i) :: r) pre (kwStream ++ (eol ++ (payload ++ gap ++ (kwEndstream ++ rest))))
  toks : r.map Prod.snd = [.int g, .kw kwObj] ++ ts
  dict : Writes fileDialect ts (.dict d)
  eolOk : StreamEol eol (payload ++ gap ++ (kwEndstream ++ rest))
  len : dictGet d nameLength = some (.int payload.length)
  gapOk : ∀ j < gap.length, ¬ kwEndstream <+: (gap ++ (kwEndstream ++ rest)).drop j
  restEq : kwEndstream ++ rest = mid ++ tail
  endText : Text (pos + pre.length + kwStream.length + eol.length + (payload ++ gap).length) ets mid tail
  endToks : ets.map Prod.snd = [.kw kwEndstream, .kw kwEndobj]
  lineOk : ¬ Unfinished rest

theorem loadXstream_of_parse (env : Env σ) (decode) (b fuel : Nat) (data : Bytes) (pos : Nat) (i : Int) (o : Obj) (s s' : σ)
    (h : getobjParse env b fuel data pos i s = (.ok o, s')) {q : Nat} (h1 : ((PSt.seek data pos).nexttoken b).1 = .ok (q, .int i)) :
    loadXstream env decode b fuel data pos s = (xsOf decode o, s') := by
  unfold getobjParse at h
  unfold loadXstream
  generalize (PSt.seek data pos).nexttoken b = r1 at *
  obtain ⟨r1, ps1⟩ := r1
  dsimp only at h1; subst h1
  dsimp only at h ⊢
  generalize ps1.nexttoken b = r2 at *
  obtain ⟨_ | ⟨q2, t2⟩, ps2⟩ := r2
  · exact absurd (congrArg Prod.fst h) (by simp)
  dsimp only at h ⊢
  generalize ps2.nexttoken b = r3 at *
  obtain ⟨_ | ⟨q3, t3⟩, ps3⟩ := r3
  · exact absurd (congrArg Prod.fst h) (by simp)
  dsimp only at h ⊢
  have hnum : (Tok.int i).isNum i = true := by simp [Tok.isNum]
  unfold fixObjid at h
  rw [if_pos hnum] at h
  dsimp only at h
  unfold finishParse at h
  rw [if_neg (by simp [hnum])] at h
  by_cases h3 : t3 = .kw kwObj
  · rw [if_neg (by simp [h3])] at h
    generalize nextobjectF env b fuel ps3 {} s = r4 at *
    obtain ⟨_ | ⟨q4, o4⟩, s4⟩ := r4
    · exact absurd (congrArg Prod.fst h) (by simp)
    · dsimp only at h ⊢
      cases h
      rfl
  · rw [if_pos h3] at h
    exact absurd (congrArg Prod.fst h) (by simp)

/-- A cross-reference stream in a file is read as what its dictionary and its decoded data say. -/
theorem stream_section (env : Env σ) (henv : env.Direct) (hfb : env.fallback = false) (decode) {b : Nat} (hb : 0 < b) {data : Bytes} {pos : Nat} {i g : Int}
    {d payload pre eol gap rest mid tail r ets ts} (h : StreamAt data pos i g d payload pre eol gap rest mid tail r ets ts) {x : XStream}
    (hx : xsOf decode (.stream d payload) = .ok x) (fuel : Nat) (hf : data.length + 2 ≤ fuel) (s : σ) :
    readSection env decode b fuel data pos s = (.ok (.stream x), s) := by
  have hlen : ts.length + 4 ≤ fuel := by
    have h1 := text_length h.text
    have h2 := congrArg List.length h.toks
    have h3 := congrArg List.length h.place
    simp [kwStream] at h1 h2 h3
    omega
  have hp := stream_payload env henv hfb b hb data pos i g pre eol payload gap rest mid tail ((pos, .int i) :: r) ets ts d (.int payload.length) fuel s s
    h.place h.text (by simp [h.toks]) h.dict h.eolOk h.len (henv _ s (by simp)) h.gapOk h.restEq h.endText h.endToks h.lineOk hlen
  have h1 := nexttoken_spec hb (PSt.seek data pos) (inv_seek data pos)
  rw [stream_seek, h.place, run_text h.text] at h1
  have ht : ((PSt.seek data pos).nexttoken b).1 = .ok (pos, .int i) := h1.2.1
  unfold readSection
  rw [if_neg (by omega), Int.toNat_natCast]
  have hl := loadXstream_of_parse env decode b fuel data pos i _ s s hp ht
  generalize (PSt.seek data pos).nexttoken b = rr at *
  obtain ⟨rr, ps⟩ := rr
  dsimp only at ht; subst ht
  dsimp only
  rw [if_pos (show (Tok.int i).isInt = true from rfl), hl, hx]

/-! ### What a cross-reference stream says -/

/-- The ranges given by the dictionary: the entry `Index`, by default one range of length `Size`. -/
inductive RangesOf (d : List (Key × Obj)) : List (Nat × Nat) → Prop
  | default {n : Nat} : dictGet d (.name [83, 105, 122, 101]) = some (.int n) → dictGet d (.name [73, 110, 100, 101, 120]) = none → RangesOf d [(0, n)]
  | index {n : Nat} {rs : List (Nat × Nat)} : dictGet d (.name [83, 105, 122, 101]) = some (.int n) →
      dictGet d (.name [73, 110, 100, 101, 120]) = some (.arr (rs.flatMap fun r => [.int r.1, .int r.2])) → RangesOf d rs

/-- A cross-reference stream with dictionary `d`, which decodes to the given rows. -/
structure XrefStream (decode : List (Key × Obj) → Bytes → Except PyErr Bytes) (d : List (Key × Obj)) (payload : Bytes) (ranges : List (Nat × Nat))
    (w1 w2 w3 : Nat) (rows : List XRow) : Prop where
  type : dictGet d (.name [84, 121, 112, 101]) = some (.name [88, 82, 101, 102])
  rangesOk : RangesOf d ranges
  widths : dictGet d (.name [87]) = some (.arr [.int w1, .int w2, .int w3])
  width1 : Width w1
  width2 : Width w2
  width3 : Width w3
  fits : ∀ r ∈ rows, r.Fits w1 w2 w3
  count : rows.length = (objNums ranges).length
  data : decode d payload = .ok (rows.map XRow.bytes).flatten

/-- The answer for object `i`: the row at its first mention in the ranges. -/
def rowsPos (ranges : List (Nat × Nat)) (rows : List XRow) (i : Int) : Except PyErr XPos :=
  match ((objNums ranges).zip rows).find? fun x => (x.1 : Int) = i with
  | some (_, r) => placePos r.place
  | none => .error .keyError

theorem chop2_pairs (rs : List (Nat × Nat)) : chop2 (rs.flatMap fun r => [.int r.1, .int r.2]) = .ok (rs.map fun r => ((r.1 : Int), (r.2 : Int))) := by
  induction rs with
  | nil => rfl
  | cons r rs ih =>
    simp only [List.flatMap_cons, List.cons_append, List.nil_append, chop2, ih, List.map_cons]

theorem xsRanges_ok {d rs} (h : RangesOf d rs) : xsRanges d = .ok (rs.map fun r => ((r.1 : Int), (r.2 : Int))) := by
  unfold xsRanges
  cases h with
  | default h1 h2 =>
    rw [show nameSize = .name [83, 105, 122, 101] from rfl, show nameIndex = .name [73, 110, 100, 101, 120] from rfl, h1, h2]
    rfl
  | index h1 h2 =>
    rw [show nameSize = .name [83, 105, 122, 101] from rfl, show nameIndex = .name [73, 110, 100, 101, 120] from rfl, h1, h2]
    dsimp only
    have hlen : ∀ rs : List (Nat × Nat), (rs.flatMap fun r => [Obj.int r.1, Obj.int r.2]).length = 2 * rs.length := by
      intro rs
      induction rs with
      | nil => rfl
      | cons r rs ih => rw [List.flatMap_cons, List.length_append, ih]; simp; omega
    rw [if_neg (by rw [hlen]; omega), chop2_pairs]

theorem xsOf_ok {decode d payload ranges w1 w2 w3 rows} (h : XrefStream decode d payload ranges w1 w2 w3 rows) :
    ∃ x, xsOf decode (.stream d payload) = .ok x ∧ x.trailer = d ∧ x.Holds ranges w1 w2 w3 rows := by
  unfold xsOf
  dsimp only
  rw [show nameType = .name [84, 121, 112, 101] from rfl, h.type]
  dsimp only
  rw [if_neg (by decide), xsRanges_ok h.rangesOk]
  dsimp only
  unfold xsWidths
  rw [show nameW = .name [87] from rfl, h.widths]
  dsimp only
  rw [h.data]
  exact ⟨_, rfl, rfl, ⟨rfl, rfl, rfl, rfl, h.width1, h.width2, h.width3, h.fits, rfl⟩⟩

theorem find_zip_some {ns : List Nat} {rows : List XRow} (hl : rows.length = ns.length) {i : Int} {x : Nat × XRow}
    (h : (ns.zip rows).find? (fun x => (x.1 : Int) = i) = some x) : ∃ k, ns[k]? = some x.1 ∧ (x.1 : Int) = i ∧ x.1 ∉ ns.take k ∧ rows[k]? = some x.2 := by
  induction ns generalizing rows with
  | nil => simp at h
  | cons n ns ih =>
    cases rows with
    | nil => simp at hl
    | cons r rows =>
      rw [List.zip_cons_cons, List.find?_cons] at h
      by_cases hn : (n : Int) = i
      · simp only [hn, decide_true] at h
        cases h
        exact ⟨0, by simp, hn, by simp, by simp⟩
      · simp only [hn, decide_false] at h
        obtain ⟨k, h1, h2, h3, h4⟩ := ih (by simpa using hl) h
        refine ⟨k + 1, by simpa using h1, h2, ?_, by simpa using h4⟩
        rw [List.take_succ_cons, List.mem_cons, not_or]
        exact ⟨by rintro e; rw [e] at h2; exact hn h2, h3⟩

theorem find_zip_none {ns : List Nat} {rows : List XRow} (hl : rows.length = ns.length) {i : Int}
    (h : (ns.zip rows).find? (fun x => (x.1 : Int) = i) = none) : ∀ k ∈ ns, (k : Int) ≠ i := by
  intro k hk
  rw [List.find?_eq_none] at h
  obtain ⟨n, hn⟩ := List.getElem?_of_mem hk
  have hlt : n < ns.length := (List.getElem?_eq_some_iff.1 hn).1
  have hz : n < (ns.zip rows).length := by simp; omega
  have := h (ns.zip rows)[n] (List.getElem_mem hz)
  rw [List.getElem?_eq_getElem hlt] at hn
  simpa [Option.some.inj hn] using this

theorem rows_pos {x : XStream} {ranges w1 w2 w3 rows} (h : x.Holds ranges w1 w2 w3 rows) (hc : rows.length = (objNums ranges).length) (i : Int) :
    x.getPos i = rowsPos ranges rows i := by
  unfold rowsPos
  cases hf : ((objNums ranges).zip rows).find? fun x => (x.1 : Int) = i with
  | none => exact xstream_absent h i (find_zip_none hc hf)
  | some y =>
    obtain ⟨k, h1, rfl, h3, h4⟩ := find_zip_some hc hf
    exact xstream_pos h k y.1 y.2 h1 h3 h4

/-! ### Chains -/

/-- A cross-reference section: where it says the objects are, and its trailer. -/
structure Sec where
  pos : Int → Except PyErr XPos
  trailer : List (Key × Obj)

/-- The section at offset `p` of the file: a table or a stream. -/
inductive SectionAt (decode : List (Key × Obj) → Bytes → Except PyErr Bytes) (data : Bytes) : Nat → Sec → Prop
  | table {p es d l0 w ls q tl more pre rest pts ts} : TableAt data p es d l0 w ls q tl more pre rest pts ts → SectionAt decode data p ⟨tablePos es, d⟩
  | stream {p i g d payload pre eol gap rest mid tail r ets ts ranges w1 w2 w3 rows} : StreamAt data p i g d payload pre eol gap rest mid tail r ets ts →
      XrefStream decode d payload ranges w1 w2 w3 rows → SectionAt decode data p ⟨rowsPos ranges rows, d⟩

/-- The sections that a pointer leads to, in the order of precedence: the section itself, those that its entry `XRefStm` leads
to, those that its entry `Prev` leads to. -/
inductive Chain (decode : List (Key × Obj) → Bytes → Except PyErr Bytes) (data : Bytes) : Option Obj → List Sec → Prop
  | nil : Chain decode data none []
  | cons {p sec a c} : SectionAt decode data p sec → Chain decode data (dictGet sec.trailer (.name [88, 82, 101, 102, 83, 116, 109])) a →
      Chain decode data (dictGet sec.trailer (.name [80, 114, 101, 118])) c → Chain decode data (some (.int p)) (sec :: (a ++ c))

/-- The section was read. -/
def Xref.Is (x : Xref) (sec : Sec) : Prop := x.trailer = sec.trailer ∧ ∀ i, x.getPos i = sec.pos i

theorem section_ok (env : Env σ) (henv : env.Direct) (hfb : env.fallback = false) (decode) {b : Nat} (hb : 0 < b) {data : Bytes} {p : Nat} {sec : Sec}
    (h : SectionAt decode data p sec) (fuel : Nat) (hf : data.length + 2 ≤ fuel) (s : σ) :
    ∃ x, readSection env decode b fuel data p s = (.ok x, s) ∧ x.Is sec := by
  cases h with
  | table h => exact table_section env henv decode hb h fuel hf s
  | stream h h2 =>
    obtain ⟨x, g1, g2, g3⟩ := xsOf_ok h2
    exact ⟨_, stream_section env henv hfb decode hb h g1 fuel hf s, g2, rows_pos g3 h2.count⟩

/-- C68. The sections of a chain are read in the order of precedence, whatever its length. -/
theorem chain_sections (decode) {b : Nat} (hb : 0 < b) (data : Bytes)
    {o : Option Obj} {secs : List Sec} (h : Chain decode data o secs) : ∃ n, ∀ env : List Xref → Env σ, (∀ l, (env l).Direct) → (∀ l, (env l).fallback = false) → ∀ fuel, n ≤ fuel → ∀ (p : Nat), o = some (.int p) → ∀ xrefs (s : σ),
      ∃ xs, readXrefFrom env decode b data fuel p xrefs s = (none, xrefs ++ xs, s) ∧ List.Forall₂ Xref.Is xs secs := by
  induction h with
  | nil => exact ⟨0, fun _ _ _ _ _ _ h => by cases h⟩
  | @cons p sec a c hs h1 h2 ih1 ih2 =>
    obtain ⟨n1, ih1⟩ := ih1
    obtain ⟨n2, ih2⟩ := ih2
    refine ⟨max (data.length + 2) (max n1 n2) + 1, fun env henv hfb fuel hf p' hp xrefs s => ?_⟩
    obtain rfl : p = p' := by simp at hp; omega
    obtain ⟨f, rfl⟩ : ∃ f, fuel = f + 1 := ⟨fuel - 1, by omega⟩
    obtain ⟨x, g1, g2, g3⟩ := section_ok (env xrefs) (henv _) (hfb _) decode hb hs f (by omega) s
    have follow : ∀ (key : Key) (l : List Sec) (hc : Chain decode data (dictGet sec.trailer key) l) (ih : ∀ (p : Nat), dictGet sec.trailer key = some (.int p) → ∀ xrefs (s : σ),
        ∃ xs, readXrefFrom env decode b data f p xrefs s = (none, xrefs ++ xs, s) ∧ List.Forall₂ Xref.Is xs l) (xrefs : List Xref),
        ∃ xs, followKey env (readXrefFrom env decode b data f) x.trailer key (none, xrefs, s) = (none, xrefs ++ xs, s) ∧ List.Forall₂ Xref.Is xs l := by
      intro key l hc ih xrefs
      unfold followKey
      rw [g2]
      dsimp only
      generalize dictGet sec.trailer key = r at *
      cases hc with
      | nil => exact ⟨[], by simp, .nil⟩
      | @cons p2 _ _ _ _ _ _ =>
        dsimp only
        have : (env xrefs).intValue (.int p2) s = (.ok (p2 : Int), s) := by
          unfold Env.intValue; rw [henv _ _ _ (by simp)]
        rw [this]
        exact ih p2 rfl xrefs s
    obtain ⟨xa, ga, fa⟩ := follow _ a h1 (ih1 env henv hfb f (by omega)) (xrefs ++ [x])
    obtain ⟨xc, gc, fc⟩ := follow _ c h2 (ih2 env henv hfb f (by omega)) (xrefs ++ [x] ++ xa)
    refine ⟨x :: (xa ++ xc), ?_, .cons ⟨g2, g3⟩ (List.rel_append fa fc)⟩
    unfold readXrefFrom
    rw [g1]
    dsimp only
    rw [show nameXRefStm = .name [88, 82, 101, 102, 83, 116, 109] from rfl, ga, show namePrev = .name [80, 114, 101, 118] from rfl, gc]
    simp

/-! ### Opening a document -/

/-- C68. The last `startxref` of the file leads to the chain of sections. -/
theorem open_sections (decode) {b : Nat} (hb : 0 < b)
    (data first : Bytes) (pre mid post : List Bytes) (sx n ds : Bytes) (secs : List Sec)
    (hf : eolFields data = first :: (pre ++ sx :: (mid ++ n :: post))) (hs : Trims sx startxrefWord) (hmid : ∀ f ∈ mid, Blank f)
    (hn : Trims n ds) (hds : Num ds) (hpost : ∀ f ∈ post, ¬ Trims f startxrefWord) (hc : Chain decode data (some (.int (decimal ds))) secs) (s : σ) :
    ∃ N, ∀ env : List Xref → Env σ, (∀ l, (env l).Direct) → (∀ l, (env l).fallback = false) → ∀ fuel, N ≤ fuel → ∃ xs, openXrefs env decode b fuel data s = (.ok xs, s) ∧ List.Forall₂ Xref.Is xs secs := by
  obtain ⟨N, h⟩ := chain_sections (σ := σ) decode hb data hc
  refine ⟨N, fun env henv hfb fuel hfuel => ?_⟩
  obtain ⟨xs, h1, h2⟩ := h env henv hfb fuel hfuel (decimal ds) rfl [] s
  refine ⟨xs, ?_, h2⟩
  unfold openXrefs
  rw [find_last_startxref b hb data first pre mid post sx n ds hf hs hmid hn hds hpost]
  dsimp only
  rw [h1]
  rfl

/-- A chain whose last `Prev` points behind the end of the file. -/
inductive BrokenChain (decode : List (Key × Obj) → Bytes → Except PyErr Bytes) (data : Bytes) : Option Obj → List Sec → Prop
  | stop {p : Nat} : data.length ≤ p → BrokenChain decode data (some (.int p)) []
  | cons {p sec c} : SectionAt decode data p sec → dictGet sec.trailer (.name [88, 82, 101, 102, 83, 116, 109]) = none →
      BrokenChain decode data (dictGet sec.trailer (.name [80, 114, 101, 118])) c → BrokenChain decode data (some (.int p)) (sec :: c)

theorem section_eof (env : Env σ) (decode) {b : Nat} (hb : 0 < b) (data : Bytes) (p fuel : Nat) (h : data.length ≤ p) (s : σ) :
    readSection env decode b fuel data p s = (.error .pdfNoValidXRef, s) := by
  have h1 := nexttoken_spec hb (PSt.seek data p) (inv_seek data p)
  rw [stream_seek, List.drop_eq_nil_of_le h] at h1
  have h2 : lexRun {} p [] = ([], .psEOF) := rfl
  rw [h2] at h1
  unfold readSection
  rw [if_neg (by omega), Int.toNat_natCast]
  generalize (PSt.seek data p).nexttoken b = r at *
  obtain ⟨r, ps⟩ := r
  obtain ⟨_, h1⟩ := h1
  simp only [] at h1
  obtain ⟨rfl, _⟩ := h1
  rfl

/-- C68. If the chain leads out of the file, the sections read before are kept (and the scan for objects, C70, finds the rest). -/
theorem broken_chain (decode) {b : Nat} (hb : 0 < b) (data : Bytes)
    {o : Option Obj} {secs : List Sec} (h : BrokenChain decode data o secs) : ∃ n, ∀ env : List Xref → Env σ, (∀ l, (env l).Direct) → (∀ l, (env l).fallback = false) → ∀ fuel, n ≤ fuel → ∀ (p : Nat), o = some (.int p) → ∀ xrefs (s : σ),
      ∃ xs, readXrefFrom env decode b data fuel p xrefs s = (some .pdfNoValidXRef, xrefs ++ xs, s) ∧ List.Forall₂ Xref.Is xs secs := by
  induction h with
  | @stop p hp =>
    refine ⟨1, fun env henv hfb fuel hf p' hp' xrefs s => ?_⟩
    obtain rfl : p = p' := by simp at hp'; omega
    obtain ⟨f, rfl⟩ : ∃ f, fuel = f + 1 := ⟨fuel - 1, by omega⟩
    refine ⟨[], ?_, .nil⟩
    unfold readXrefFrom
    rw [section_eof _ decode hb data p f hp s]
    simp
  | @cons p sec c hs hx h2 ih =>
    obtain ⟨n, ih⟩ := ih
    refine ⟨max (data.length + 2) n + 1, fun env henv hfb fuel hf p' hp xrefs s => ?_⟩
    obtain rfl : p = p' := by simp at hp; omega
    obtain ⟨f, rfl⟩ : ∃ f, fuel = f + 1 := ⟨fuel - 1, by omega⟩
    obtain ⟨x, g1, g2, g3⟩ := section_ok (env xrefs) (henv _) (hfb _) decode hb hs f (by omega) s
    have ih := ih env henv hfb f (by omega)
    obtain ⟨p2, hp2⟩ : ∃ p2 : Nat, dictGet sec.trailer (.name [80, 114, 101, 118]) = some (.int p2) := by
      generalize dictGet sec.trailer (.name [80, 114, 101, 118]) = r at *
      cases h2 <;> exact ⟨_, rfl⟩
    obtain ⟨xs, h3, h4⟩ := ih p2 hp2 (xrefs ++ [x]) s
    refine ⟨x :: xs, ?_, .cons ⟨g2, g3⟩ h4⟩
    unfold readXrefFrom
    rw [g1]
    dsimp only
    rw [show nameXRefStm = .name [88, 82, 101, 102, 83, 116, 109] from rfl, show namePrev = .name [80, 114, 101, 118] from rfl, g2]
    have e1 : followKey env (readXrefFrom env decode b data f) sec.trailer (.name [88, 82, 101, 102, 83, 116, 109]) (none, xrefs ++ [x], s) =
        (none, xrefs ++ [x], s) := by
      unfold followKey; rw [hx]
    rw [e1]
    unfold followKey
    rw [hp2]
    dsimp only
    have : (env (xrefs ++ [x])).intValue (.int p2) s = (.ok (p2 : Int), s) := by
      unfold Env.intValue; rw [henv _ _ _ (by simp)]
    rw [this]
    dsimp only
    rw [h3]
    simp

theorem open_broken (decode) {b : Nat} (hb : 0 < b)
    (data : Bytes) (p : Nat) (hf : findXref b data = .ok p) (secs : List Sec) (hc : BrokenChain decode data (some (.int p)) secs) (s : σ) :
    ∃ N, ∀ env : List Xref → Env σ, (∀ l, (env l).Direct) → (∀ l, (env l).fallback = false) → ∀ fuel, N ≤ fuel → ∃ xs, openXrefs env decode b fuel data s = (.ok xs, s) ∧ List.Forall₂ Xref.Is xs secs := by
  obtain ⟨N, h⟩ := broken_chain (σ := σ) decode hb data hc
  refine ⟨N, fun env henv hfb fuel hfuel => ?_⟩
  obtain ⟨xs, h1, h2⟩ := h env henv hfb fuel hfuel p rfl [] s
  refine ⟨xs, ?_, h2⟩
  unfold openXrefs
  rw [hf]
  dsimp only
  rw [h1]
  rfl

theorem forall₂_split {xs : List Xref} {newer older : List Sec} {sec : Sec} (h : List.Forall₂ Xref.Is xs (newer ++ sec :: older)) :
    ∃ a x c, xs = a ++ x :: c ∧ (∀ y ∈ a, ∃ t ∈ newer, y.Is t) ∧ x.Is sec := by
  induction newer generalizing xs with
  | nil =>
    cases h with
    | cons h1 h2 => exact ⟨[], _, _, rfl, by simp, h1⟩
  | cons t newer ih =>
    cases h with
    | cons h1 h2 =>
      obtain ⟨a, x, c, rfl, h3, h4⟩ := ih h2
      refine ⟨_ :: a, x, c, rfl, ?_, h4⟩
      intro y hy
      rcases List.mem_cons.1 hy with rfl | hy
      · exact ⟨t, by simp, h1⟩
      · obtain ⟨t', h5, h6⟩ := h3 y hy
        exact ⟨t', by simp [h5], h6⟩

/-- C68, end to end. In a document whose cross-reference sections form a chain (tables and streams, any number of updates), the
object that the newest section with an entry for `i` points at is returned, whatever older sections - and the section `more` that
is added after them - say. -/
theorem updated_object (D : Doc) (hb : 0 < D.bufsiz) (hdec : D.decipher = none) (xs : List Xref) (more) (hx : D.xrefs = xs.map Xref.getPos ++ more)
    (newer older : List Sec) (sec : Sec) (hxs : List.Forall₂ Xref.Is xs (newer ++ sec :: older))
    {s : Cache} (hs : Reach D s) (i : Int) (hi : i ≠ 0) (hnew : ∀ t ∈ newer, t.pos i = .error .keyError)
    (pos : Nat) (gen g : Int) (hp : sec.pos i = .ok (none, pos, gen)) (pre rest : Bytes) (pts : List (Nat × Tok)) (ts : List Tok) (o : Obj)
    (hdata : D.data.drop pos = pre ++ rest) (ht : Text pos pts pre rest)
    (hpts : pts.map Prod.snd = [.int i, .int g, .kw kwObj] ++ ts ++ [.kw kwEndobj]) (hw : Writes fileDialect ts o) :
    D.Yields true s i (.ok (o, gen)) := by
  obtain ⟨a, x, c, rfl, h1, h2⟩ := forall₂_split hxs
  refine newest_object D hb hdec hs i hi (a.map Xref.getPos) (c.map Xref.getPos ++ more) x.getPos (by rw [hx]; simp) ?_ pos gen g
    (by rw [h2.2, hp]) pre rest pts ts o hdata ht hpts hw
  intro y hy
  obtain ⟨z, hz, rfl⟩ := List.mem_map.1 hy
  obtain ⟨t, h3, h4⟩ := h1 z hz
  rw [h4.2, hnew t h3]

/-- `xref LF 3 1 LF 17 0 n LF trailer <<>> startxref LF` -/
def tableFile : Bytes := [120, 114, 101, 102, 10, 51, 32, 49, 10, 49, 55, 32, 48, 32, 110, 10, 116, 114, 97, 105, 108, 101, 114, 32, 60, 60, 62, 62, 32,
  115, 116, 97, 114, 116, 120, 114, 101, 102, 10]

example : ∃ l0 w ls q tl more pre rest pts ts, TableAt tableFile 0 [(3, some (17, 0))] [] l0 w ls q tl more pre rest pts ts := by
  refine ⟨[10], tableFile.drop 5, [[51, 32, 49, 10], [49, 55, 32, 48, 32, 110, 10]], 16, tableFile.drop 16, [], tableFile.drop 16 |>.dropLast, [10],
    [(16, .kw [116, 114, 97, 105, 108, 101, 114]), (24, .kw [60, 60]), (26, .kw [62, 62]), (29, .kw [115, 116, 97, 114, 116, 120, 114, 101, 102])],
    [.kw [60, 60], .kw [62, 62]], ?_⟩
  refine ⟨by decide, by unfold Blank; decide, .lf (body := []) (by unfold NoEol; decide), ?_, ?_, by decide, .lf (body := tableFile.drop 16 |>.dropLast) (by unfold NoEol; decide), by decide, by decide, ?_, rfl, ?_⟩
  · exact .cons (w := tableFile.drop 9) (by decide) (.lf (body := [51, 32, 49]) (by unfold NoEol; decide))
      (.cons (w := tableFile.drop 16) (by decide) (.lf (body := [49, 55, 32, 48, 32, 110]) (by unfold NoEol; decide)) .nil)
  · exact .section (s := [51]) (n := [49]) (els := [[49, 55, 32, 48, 32, 110, 10]]) (ls := []) (es := []) (ents := [(3, some (17, 0))])
      ⟨[], [10], by decide, by decide, by decide, by decide, by decide⟩
      ⟨by decide, by decide⟩ ⟨by decide, by decide⟩
      (.cons (.used (p := [49, 55]) (g := [48]) ⟨[], [10], by decide, by decide, by decide, by decide, by decide⟩ ⟨by decide, by decide⟩ ⟨by decide, by decide⟩) .nil) (by decide) .nil
  · exact .tok (e := [116, 114, 97, 105, 108, 101, 114]) (.keyword (by decide) (by decide) (by decide) (by decide)) ⟨32, _, rfl, by decide, by decide⟩
      (.white (by decide) (.tok (e := [60, 60]) .dictOpen trivial (.tok (e := [62, 62]) .dictClose trivial (.white (by decide)
        (.tok (e := [115, 116, 97, 114, 116, 120, 114, 101, 102]) (a := []) (.keyword (by decide) (by decide) (by decide) (by decide)) ⟨10, _, rfl, by decide, by decide⟩ .nil)))))
  · exact writes_obj rfl (.dict []) (by simp [WF, WFitems])

/-- A file with an update: the section at 3 has object 3, the newer one has object 4 and `Prev`. -/
def updatedFile : Bytes := [37, 80, 10, 120, 114, 101, 102, 10, 51, 32, 49, 10, 49, 32, 48, 32, 110, 10, 116, 114, 97, 105, 108, 101, 114, 32, 60, 60, 62, 62, 10, 115, 116, 97, 114, 116, 120, 114, 101, 102, 10, 120, 114, 101, 102, 10, 52, 32, 49, 10, 50, 32, 48, 32, 110, 10, 116, 114, 97, 105, 108, 101, 114, 32, 60, 60, 47, 80, 114, 101, 118, 32, 51, 62, 62, 10, 115, 116, 97, 114, 116, 120, 114, 101, 102, 10, 52, 49, 10]

example : (match openXrefs (fun _ => plainEnv false) (fun _ x => .ok x) 64 200 updatedFile () with
    | (.ok xs, _) => xs.map fun x => (x.getPos 3, x.getPos 4)
    | _ => []) = [(.error .keyError, .ok (none, 2, 0)), (.ok (none, 1, 0), .error .keyError)] := by decide +kernel

/-! ### The catalog -/

/-- C69. The catalog is the `Root` of the first trailer that has one; `info` has the `Info` dictionaries of the trailers up to it,
in order. -/
theorem catalog_of_newest (dictv : Obj → Except PyErr (List (Key × Obj))) (before after : List (List (Key × Obj))) (t : List (Key × Obj)) (root : Obj)
    (cat : List (Key × Obj)) (hb : ∀ x ∈ before, dictGet x (.name [82, 111, 111, 116]) = none) (ht : dictGet t (.name [82, 111, 111, 116]) = some root)
    (hr : dictv root = .ok cat) (infos : List (List (Key × Obj)))
    (hi : List.Forall₂ (fun o d => dictv o = .ok d) ((before ++ [t]).filterMap fun x => dictGet x (.name [73, 110, 102, 111])) infos) (start) :
    rootLoop dictv (before ++ t :: after) start = .ok (start ++ infos, cat) := by
  induction before generalizing start infos with
  | nil =>
    simp only [List.nil_append, List.filterMap_cons, List.filterMap_nil] at hi
    simp only [List.nil_append, rootLoop]
    rw [show nameInfo = .name [73, 110, 102, 111] from rfl, show nameRoot = .name [82, 111, 111, 116] from rfl]
    cases h : dictGet t (.name [73, 110, 102, 111]) with
    | none =>
      rw [h] at hi
      cases hi
      simp [ht, hr]
    | some o =>
      rw [h] at hi
      cases hi with
      | cons h1 h2 =>
        cases h2
        simp [h1, ht, hr]
  | cons x before ih =>
    simp only [List.cons_append, List.filterMap_cons] at hi
    simp only [List.cons_append, rootLoop]
    rw [show nameInfo = .name [73, 110, 102, 111] from rfl, show nameRoot = .name [82, 111, 111, 116] from rfl, hb x (by simp)]
    cases h : dictGet x (.name [73, 110, 102, 111]) with
    | none =>
      rw [h] at hi
      exact ih (fun y hy => hb y (by simp [hy])) infos hi start
    | some o =>
      rw [h] at hi
      cases hi with
      | cons h1 h2 =>
        dsimp only
        rw [h1]
        dsimp only
        rw [ih (fun y hy => hb y (by simp [hy])) _ h2]
        simp

/-- C69. Without any `Root` the document is rejected with `PDFSyntaxError`. -/
theorem no_catalog (dictv : Obj → Except PyErr (List (Key × Obj))) (ts : List (List (Key × Obj))) (h : ∀ x ∈ ts, dictGet x (.name [82, 111, 111, 116]) = none)
    (hi : ∀ x ∈ ts, ∀ o, dictGet x (.name [73, 110, 102, 111]) = some o → ∃ d, dictv o = .ok d) (start) :
    rootLoop dictv ts start = .error .pdfSyntaxError := by
  induction ts generalizing start with
  | nil => rfl
  | cons x ts ih =>
    simp only [rootLoop]
    rw [show nameInfo = .name [73, 110, 102, 111] from rfl, show nameRoot = .name [82, 111, 111, 116] from rfl, h x (by simp)]
    have ih' := ih (fun y hy => h y (by simp [hy])) (fun y hy => hi y (by simp [hy]))
    cases hx : dictGet x (.name [73, 110, 102, 111]) with
    | none => exact ih' _
    | some o =>
      obtain ⟨d, hd⟩ := hi x (by simp) o hx
      dsimp only
      rw [hd]
      exact ih' _

end Pdf

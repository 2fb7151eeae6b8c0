import Verif.Proofs.Print
import Verif.Model.ObjEq
/-! C20-C22: object syntax, dictionaries, stray brackets. `parseObjects h b data n` is what the first `n` calls of
`nextobject` return on a file `data`, and the exception that ended the reading. -/

namespace Pdf
open Spec

theorem lexRun_text {ts data} (h : Text 0 ts data []) : lexRun {} 0 data = (ts, .psEOF) := by
  have := run_text h
  rw [List.append_nil] at this
  rw [this]
  simp [Stream.pre, lexRun]

/-- Any sequence of objects, however it is spelled, comes out of the two parsers that flush. -/
theorem read_objects {h : Hooks} {D : Dialect} (hf : h.Frame) (hD : h.Speaks D) (hfl : ∀ st, h.flush st = st.flushAll)
    (b : Nat) (hb : 0 < b) (data : Bytes) (pts : List (Nat × Tok)) (os : List Obj) (ht : Text 0 pts data [])
    (hw : WritesSeq D (pts.map Prod.snd) os) (hr : ∀ i g, .ref i g ∉ os) (n : Nat) :
    parseObjects h b data n = (os.take n, if os.length < n then some .psEOF else none) := by
  obtain ⟨pos, h1, h2⟩ := emitsSeq hD hfl hw hr {} ⟨rfl, rfl, rfl⟩ pts rfl
  have hx : feedRun h {} (lexRun {} 0 data).2 (lexRun {} 0 data).1 = (pos, .psEOF) := by
    rw [lexRun_text ht]
    have := feedRun_append h2 .psEOF []
    rw [List.append_nil] at this
    simp [this, feedRun]
  rw [parseObjects_take hf hb data n _ _ hx, h1]
  have := congrArg List.length h1
  rw [List.length_map] at this
  rw [this]

/-- C20. Objects in an object stream (any spelling, any nesting). -/
theorem objstm_objects (b : Nat) (hb : 0 < b) (data : Bytes) (pts : List (Nat × Tok)) (os : List Obj) (ht : Text 0 pts data [])
    (hw : WritesSeq objstmDialect (pts.map Prod.snd) os) (hr : ∀ i g, .ref i g ∉ os) (n : Nat) :
    parseObjects streamHooks b data n = (os.take n, if os.length < n then some .psEOF else none) :=
  read_objects frame_stream speaks_stream (fun _ => rfl) b hb data pts os ht hw hr n

/-- C20. Operands and operators in a content stream. -/
theorem content_objects (b : Nat) (hb : 0 < b) (data : Bytes) (pts : List (Nat × Tok)) (os : List Obj) (ht : Text 0 pts data [])
    (hw : WritesSeq contentDialect (pts.map Prod.snd) os) (hr : ∀ i g, .ref i g ∉ os) (n : Nat) :
    parseObjects contentHooks b data n = (os.take n, if os.length < n then some .psEOF else none) :=
  read_objects frame_content speaks_content (fun _ => rfl) b hb data pts os ht hw hr n

/-- `[ 1 /A ] q` -/
example : WritesSeq contentDialect [.kw [91], .int 1, .lit [65], .kw [93], .kw [113]] [.arr [.int 1, .name [65]], .kw [113]] := by
  have h1 : Writes contentDialect [.kw [91], .int 1, .lit [65], .kw [93]] (.arr [.int 1, .name [65]]) :=
    .arr (.cons (.int 1) (.cons (.name _) .nil))
  exact .cons h1 (.cons (.kw [113] (by simp [contentDialect, brackets])) .nil)

theorem feed_endobj (st : StackSt) (q : Nat) (x : List (Nat × Obj)) (hx : x.length ≤ 4) (hs : st.curstack = x) :
    st.feed fileHooks q (.kw kwEndobj) = .ok { st with curstack := [], results := st.results ++ x } := by
  have : st.feedBody fileHooks q (.kw kwEndobj) = .ok { st with curstack := [], results := st.results ++ x } := by
    rw [feedBody_kw st q (by decide)]
    simp only [fileHooks, fileKeyword]
    rw [if_neg (by decide)]
    subst hs
    simp [StackSt.pop, Nat.sub_eq_zero_of_le hx]
  unfold StackSt.feed
  rw [this]
  exact settle_keeps (Or.inr fun _ => rfl)

/-- C20. An indirect object `i g obj ... endobj` in the body of a file. -/
theorem indirect_object (b : Nat) (hb : 0 < b) (data : Bytes) (pts : List (Nat × Tok)) (i g : Int) (ts : List Tok) (o : Obj)
    (ht : Text 0 pts data []) (hp : pts.map Prod.snd = [.int i, .int g, .kw kwObj] ++ ts ++ [.kw kwEndobj])
    (hw : Writes fileDialect ts o) (n : Nat) :
    parseObjects fileHooks b data n =
      ([.int i, .int g, .kw kwObj, o].take n, if 4 < n then some .psEOF else none) := by
  obtain ⟨x, y, rfl, hx, hy⟩ := map_snd_append hp
  have hseq : WritesSeq fileDialect ([.int i, .int g, .kw kwObj] ++ ts) [.int i, .int g, .kw kwObj, o] := by
    have := WritesSeq.cons (D := fileDialect) (.int i) (.cons (.int g) (.cons (.kw kwObj (by simp [fileDialect, brackets, kwObj])) (.cons hw .nil)))
    simpa using this
  obtain ⟨pos, h1, h2⟩ := pushesSeq speaks_file hseq {} x (Or.inr fun _ => rfl) hx
  obtain ⟨q, r, rfl, hr⟩ := map_snd_cons hy
  have : r = [] := by simpa using hr
  subst this
  have hl : pos.length = 4 := by have := congrArg List.length h1; simpa using this
  have hx : feedRun fileHooks {} (lexRun {} 0 data).2 (lexRun {} 0 data).1 = (pos, .psEOF) := by
    rw [lexRun_text ht]
    dsimp only
    rw [feedRun_append h2]
    simp only [feedRun]
    rw [feed_endobj _ q pos (by omega) rfl]
    simp
  rw [parseObjects_take frame_file hb data n _ _ hx, h1, hl]

/-- C20. Printing and parsing: any objects, any nesting; top level references cannot be read from an object stream
(see `objstm_reference_fails`). -/
theorem print_parse (b : Nat) (hb : 0 < b) (os : List Obj) (hw : WFs os) (hr : ∀ i g, .ref i g ∉ os) :
    parseObjects streamHooks b (printToks (seqToks os)) (os.length + 1) = (os, some .psEOF) := by
  obtain ⟨pts, h1, h2⟩ := text_print (seqToks os) (printable_seq os hw) 0 []
  rw [objstm_objects b hb _ pts os h2 (h1 ▸ writes_seq rfl os hw) hr, List.take_of_length_le (Nat.le_succ _)]
  simp

/-- C20. Printing and parsing an indirect object, references included. -/
theorem print_parse_indirect (b : Nat) (hb : 0 < b) (i g : Int) (o : Obj) (hw : WF o) :
    parseObjects fileHooks b (printToks ([.int i, .int g, .kw kwObj] ++ objToks o ++ [.kw kwEndobj])) 5 =
      ([.int i, .int g, .kw kwObj, o], some .psEOF) := by
  have hpr : ∀ t ∈ [.int i, .int g, .kw kwObj] ++ objToks o ++ [.kw kwEndobj], Printable t := by
    intro t ht
    simp only [List.mem_append, List.mem_cons, List.not_mem_nil, or_false] at ht
    rcases ht with ((rfl | rfl | rfl) | ht) | rfl
    · trivial
    · trivial
    · exact Or.inr ⟨111, [98, 106], rfl, by decide, by decide, by decide, by decide⟩
    · exact printable_obj o hw t ht
    · exact Or.inr ⟨101, [110, 100, 111, 98, 106], rfl, by decide, by decide, by decide, by decide⟩
  obtain ⟨pts, h1, h2⟩ := text_print _ hpr 0 []
  rw [indirect_object b hb _ pts i g _ o h2 h1 (writes_obj rfl o hw)]
  rfl

/-- An object with everything in it: `[<< /A [1 2.5 (x)] /B 3 0 R >> true /N]`. -/
example : WF (.arr [.dict [(.name [65], .arr [.int 1, .real 25 1, .str [120]]), (.name [66], .ref 3 0)], .bool true, .name [78]]) := by
  simp [WF, WFs, WFitems]

example : printObj (.arr [.dict [(.name [65], .real 25 1)], .int (-7)]) =
    [91, 32, 60, 60, 32, 47, 65, 32, 50, 46, 53, 32, 62, 62, 32, 45, 55, 32, 93, 32] := by decide +kernel

/-- `1 0 R ` in an object stream: the operands are gone before `R` is seen (PDFParser.py:155-166). -/
theorem objstm_reference_fails : parseObjects streamHooks 4096 [49, 32, 48, 32, 82, 32] 3 = ([.int 1, .int 0], some .valueError) := by
  decide +kernel

theorem dictGet_mem (d : List (Key × Obj)) (k v) (h : (d.map Prod.fst).Nodup) : dictGet d k = some v ↔ (k, v) ∈ d := by
  induction d with
  | nil => simp [dictGet]
  | cons x xs ih =>
    obtain ⟨a, c⟩ := x
    simp only [List.map_cons, List.nodup_cons] at h
    unfold dictGet
    split
    · rename_i hak
      subst hak
      constructor
      · intro e; simp at e; simp [e]
      · intro e
        rcases List.mem_cons.mp e with e | e
        · simp at e; simp [e]
        · exact absurd (List.mem_map_of_mem (f := Prod.fst) e) h.1
    · rename_i hak
      rw [ih h.2]
      simp [Ne.symm hak]

theorem dictGet_none (d : List (Key × Obj)) (k) : dictGet d k = none ↔ k ∉ d.map Prod.fst := by
  induction d with
  | nil => simp [dictGet]
  | cons x xs ih =>
    obtain ⟨a, c⟩ := x
    unfold dictGet
    split
    · rename_i h; simp [h]
    · rename_i h
      rw [ih]; simp [Ne.symm h]

theorem lastValue_none (k : Key) (ps : List (Key × Obj)) : lastValue k ps = none ↔ k ∉ ps.map Prod.fst := by
  induction ps with
  | nil => simp [lastValue]
  | cons x xs ih =>
    obtain ⟨a, c⟩ := x
    simp only [lastValue, List.map_cons, List.mem_cons, not_or]
    cases h : lastValue k xs with
    | some v => rw [h] at ih; simp at ih; simp only [reduceCtorEq, false_iff, not_and]; intro _ h2; exact h2 (by simpa using ih)
    | none =>
      rw [h] at ih
      simp only [true_iff] at ih
      by_cases hk : a = k
      · simp [hk]
      · simp [hk, Ne.symm hk]; simpa using ih

theorem dictOf_get {ps d} (h : DictOf ps d) (k : Key) : dictGet d k = lastValue k ps := by
  obtain ⟨h1, h2⟩ := h
  have hn : (d.map Prod.fst).Nodup := by rw [h1]; exact nodup_firsts _
  cases hg : dictGet d k with
  | none =>
    rw [dictGet_none, h1, mem_firsts, ← lastValue_none] at hg
    exact hg.symm
  | some v =>
    rw [dictGet_mem d k v hn] at hg
    exact (h2 _ hg).symm

/-- C21. A dictionary written with any elements (`null` values, repeated keys): it maps each key to the last non-null
value given for it and has no other key. -/
theorem dictionary_semantics (b : Nat) (hb : 0 < b) (data : Bytes) (pts : List (Nat × Tok)) (i g : Int) (ts : List Tok)
    (os : List Obj) (ps : List (Key × Obj)) (ht : Text 0 pts data [])
    (hp : pts.map Prod.snd = [.int i, .int g, .kw kwObj] ++ (.kw [60, 60] :: ts ++ [.kw [62, 62]]) ++ [.kw kwEndobj])
    (hw : WritesSeq fileDialect ts os) (hps : Pairs os ps) :
    ∃ d, parseObjects fileHooks b data 5 = ([.int i, .int g, .kw kwObj, .dict d], some .psEOF) ∧
      (d.map Prod.fst).Nodup ∧ ∀ k, dictGet d k = lastValue k ps := by
  obtain ⟨d, _, hd⟩ := buildDict_pairs hps [] [] ⟨rfl, by simp⟩
  refine ⟨d, ?_, ?_, fun k => dictOf_get hd k⟩
  · rw [indirect_object b hb data pts i g _ (.dict d) ht hp (.dict hw hps hd)]
    rfl
  · rw [hd.1]; exact nodup_firsts _

/-- `/A 1 /B null /A 2` denotes `{A: 2}`. -/
example : Pairs [.name [65], .int 1, .name [66], .null, .name [65], .int 2] [(.name [65], .int 1), (.name [65], .int 2)] ∧
    lastValue (.name [65]) [(.name [65], .int 1), (.name [65], .int 2)] = some (.int 2) :=
  ⟨.cons (by simp) rfl (.null (.cons (by simp) rfl .nil)), by simp [lastValue]⟩

/-- C21. An odd number of elements is rejected, whatever follows. -/
theorem odd_dictionary_rejected (b : Nat) (hb : 0 < b) (a rest : Bytes) (pts : List (Nat × Tok)) (ts : List Tok)
    (os : List Obj) (ht : Text 0 pts a rest) (hp : pts.map Prod.snd = .kw [60, 60] :: ts ++ [.kw [62, 62]])
    (hw : WritesSeq objstmDialect ts os) (hodd : os.length % 2 = 1) (n : Nat) :
    parseObjects streamHooks b (a ++ rest) (n + 1) = ([], some .psSyntaxError) := by
  obtain ⟨p, q, pos, x, rfl, h1, h2⟩ := feed_inside (h := streamHooks) (pushesSeq speaks_stream hw) {} _ _ .d (by simp) pts hp
  have hl : pos.length % 2 = 1 := by
    have := congrArg List.length h1
    rw [List.length_map] at this
    omega
  have hx : feedRun streamHooks {} (lexRun {} 0 (a ++ rest)).2 (lexRun {} 0 (a ++ rest)).1 = ([], .psSyntaxError) := by
    rw [run_text ht]
    simp only [Stream.pre]
    rw [List.append_assoc, feedRun_append h2]
    simp only [List.cons_append, List.nil_append, feedRun]
    have : (inside {} p .d pos).feed streamHooks q (.kw [62, 62]) = .error .psSyntaxError := by
      simp [StackSt.feed, StackSt.feedBody, StackSt.closeDict, endType_inside, hl, Hooks.settle]
    rw [this]
    rfl
  rw [parseObjects_take frame_stream hb _ _ _ _ hx]
  simp

theorem take_congr (n : Nat) {x y : List (Nat × Obj) × PyErr} (h : x.1.map Prod.snd = y.1.map Prod.snd ∧ x.2 = y.2) :
    ((x.1.map Prod.snd).take n, if x.1.length < n then some x.2 else none) =
      ((y.1.map Prod.snd).take n, if y.1.length < n then some y.2 else none) := by
  have := congrArg List.length h.1
  simp only [List.length_map] at this
  rw [h.1, h.2, this]

/-- C22. A stray closing bracket (`]`, `>>` or `}` that does not close the innermost open bracket) changes nothing: with
and without it, the parser returns the same objects and the same error, whatever precedes and follows. -/
theorem stray_bracket_ignored (h : Hooks) (hh : h = fileHooks ∨ h = streamHooks ∨ h = contentHooks) (b : Nat) (hb : 0 < b)
    (a rest : Bytes) (pts : List (Nat × Tok)) (c : Bytes) (ht : Text 0 pts a rest) (ht' : Text 0 pts a (c ++ rest))
    (hst : Stray c (openBrackets [] (pts.map Prod.snd))) (n : Nat) :
    parseObjects h b (a ++ (c ++ rest)) n = parseObjects h b (a ++ rest) n := by
  have hF : h.Frame ∧ h.Blind ∧ h.Calm ∧ h.flush {} = {} := by
    rcases hh with rfl | rfl | rfl
    · exact ⟨frame_file, blind_file, calm_file, rfl⟩
    · exact ⟨frame_stream, blind_stream, calm_stream, rfl⟩
    · exact ⟨frame_content, blind_content, calm_content, rfl⟩
  obtain ⟨hf, hbl, hc, hfl⟩ := hF
  have hsp : ∃ k, Spells c (.kw c) k ∧ k.ok rest := by
    rcases hst with ⟨rfl, _⟩ | ⟨rfl, _⟩ | ⟨rfl, _⟩
    · exact ⟨_, .bracket (by decide), trivial⟩
    · exact ⟨_, .dictClose, trivial⟩
    · exact ⟨_, .bracket (by decide), trivial⟩
  obtain ⟨k, hk, hk2⟩ := hsp
  have e1 := run_text ht
  have e2 := run_text ht'
  have e3 := run_text (p := a.length) (Text.tok (a := []) hk (by simpa using hk2) .nil)
  rw [List.append_nil] at e3
  have e4 := lexRun_shift a.length c.length rest
  simp only [Nat.zero_add] at e2 e1
  rw [e3] at e2
  rw [e4] at e2
  rw [parseObjects_take hf hb _ n _ _ rfl, parseObjects_take hf hb _ n _ _ rfl]
  refine take_congr n ?_
  rw [e1, e2]
  simp only [Stream.pre, shiftToks, List.cons_append, List.nil_append]
  rw [feedRun_stray hc hfl _ pts _ _ c hst]
  exact feedRun_same hbl (lexRun {} a.length rest).2
    (pts ++ (lexRun {} a.length rest).1.map (fun x => (x.1 + c.length, x.2))) (pts ++ (lexRun {} a.length rest).1) {} {}
    ⟨rfl, rfl, rfl, rfl⟩ (by simp [Function.comp_def])

/-- `[ 1 >> 2 ]` with the stray `>>`: inside the array. -/
example : Stray [62, 62] (openBrackets [] [.kw [91], .int 1]) := by
  simp [Stray, openBrackets]

/-- A reading with a stray bracket. -/
example : parseObjects streamHooks 4096 [91, 49, 32, 62, 62, 32, 50, 32, 93] 3 =
    parseObjects streamHooks 4096 [91, 49, 32, 32, 50, 32, 93] 3 := by
  refine stray_bracket_ignored streamHooks (by simp) 4096 (by decide) [91, 49, 32] [32, 50, 32, 93] [(0, .kw [91]), (1, .int 1)] [62, 62] ?_ ?_
    (by simp [Stray, openBrackets]) 3
  all_goals
    refine .tok (e := [91]) (.bracket (by decide)) trivial (.tok (e := [49]) (k := .notDigitOrDot) ?_ ⟨32, _, rfl, by decide, by decide⟩ (.white (by decide) .nil))
    exact Spells.int (s := []) (ds := [49]) .none (by simp) (by decide)

end Pdf

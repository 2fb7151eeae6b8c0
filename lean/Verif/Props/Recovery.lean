import Verif.Proofs.Recovery
import Verif.Props.Objstm
/-! C70: recovery of damaged files by a scan for objects. -/

namespace Pdf
open Spec

variable {σ : Type}

/-- The last entry for object `i`. -/
def Spec.lastEntry (i : Int) : List (Int × XPos) → Option XPos
  | [] => none
  | (j, e) :: es => match lastEntry i es with
    | some x => some x
    | none => if j = i then some e else none

/-- The part of a file from offset `p` to offset `q`, a series of
* lines that neither begin `i g obj` nor `trailer`;
* objects `i g obj ... endobj` that begin a line;
* streams `i g obj << ... >> stream ... endstream endobj` that begin a line, the data ending at the first `endstream`;
* such streams with `/Type /ObjStm` that contain objects.
The entries are the places of the objects: `(none, p, g)` for an object at offset `p`, `(some i, k, 0)` for the `k`-th object of the
object stream `i`. -/
inductive Spec.Region (decode : List (Key × Obj) → Bytes → Except PyErr Bytes) (data : Bytes) : Nat → List (Int × XPos) → Nat → Prop
  | done {p} : Region decode data p [] p
  | line {p l w es q} : data.drop p = l ++ w → IsLine l w → ¬ kwTrailer <+: l → (∀ i g, ¬ Cue l i g) →
      Region decode data (p + l.length) es q → Region decode data p es q
  | object {p l w i g pre rest pts ts o es q} : data.drop p = l ++ w → IsLine l w → Cue l i g →
      data.drop p = pre ++ (kwEndobj ++ rest) → Text p pts pre (kwEndobj ++ rest) →
      pts.map Prod.snd = [.int i, .int g, .kw kwObj] ++ ts → Writes fileDialect ts o → (∃ c r, rest = c :: r ∧ Delim c ∧ c ≠ 35) →
      Region decode data (p + pre.length + 6) es q → Region decode data p ((↑i, none, ↑p, ↑g) :: es) q
  | stream {p l w i g pre eol body gap tail pts ts d es q} : data.drop p = l ++ w → IsLine l w → Cue l i g →
      data.drop p = pre ++ (kwStream ++ (eol ++ (body ++ (kwEndstream ++ (gap ++ (kwEndobj ++ tail)))))) →
      Text p pts pre (kwStream ++ (eol ++ (body ++ (kwEndstream ++ (gap ++ (kwEndobj ++ tail)))))) →
      pts.map Prod.snd = [.int i, .int g, .kw kwObj] ++ ts → Writes fileDialect ts (.dict d) →
      StreamEol eol (body ++ (kwEndstream ++ (gap ++ (kwEndobj ++ tail)))) →
      (∀ j < body.length, ¬ kwEndstream <+: (body ++ (kwEndstream ++ (gap ++ (kwEndobj ++ tail)))).drop j) →
      gap ≠ [] → (∀ c ∈ gap, White c) → (∃ c r, tail = c :: r ∧ Delim c ∧ c ≠ 35) → ¬ Unfinished (gap ++ (kwEndobj ++ tail)) →
      dictGet d nameType ≠ some (.name nameObjStm) →
      Region decode data (p + pre.length + (kwStream ++ eol).length + body.length + kwEndstream.length + gap.length + 6) es q →
      Region decode data p ((↑i, none, ↑p, ↑g) :: es) q
  | objstm {p l w i g pre eol body gap tail pts ts d text spts es q} {index : List (Int × Int)}
      {os : List Obj} : data.drop p = l ++ w → IsLine l w → Cue l i g →
      data.drop p = pre ++ (kwStream ++ (eol ++ (body ++ (kwEndstream ++ (gap ++ (kwEndobj ++ tail)))))) →
      Text p pts pre (kwStream ++ (eol ++ (body ++ (kwEndstream ++ (gap ++ (kwEndobj ++ tail)))))) →
      pts.map Prod.snd = [.int i, .int g, .kw kwObj] ++ ts → Writes fileDialect ts (.dict d) →
      StreamEol eol (body ++ (kwEndstream ++ (gap ++ (kwEndobj ++ tail)))) →
      (∀ j < body.length, ¬ kwEndstream <+: (body ++ (kwEndstream ++ (gap ++ (kwEndobj ++ tail)))).drop j) →
      gap ≠ [] → (∀ c ∈ gap, White c) → (∃ c r, tail = c :: r ∧ Delim c ∧ c ≠ 35) → ¬ Unfinished (gap ++ (kwEndobj ++ tail)) →
      dictGet d nameType = some (.name nameObjStm) → dictGet d nameN = some (.int index.length) →
      decode d body = .ok text → Text 0 spts text [] →
      WritesSeq objstmDialect (spts.map Prod.snd) (index.flatMap (fun x => [.int x.1, .int x.2]) ++ os) → (∀ i g, .ref i g ∉ os) →
      Region decode data (p + pre.length + (kwStream ++ eol).length + body.length + kwEndstream.length + gap.length + 6) es q →
      Region decode data p ((↑i, none, ↑p, ↑g) :: (index.mapIdx (fun k x => ((x.1, some (i : Int), (k : Int), 0) : Int × XPos)) ++ es)) q

/-- What ends the scan at offset `q`, and the trailer dictionary: the end of the file (an unfinished line is ignored), or a line that begins
with `trailer`; from there on the word `trailer` and a dictionary, and then the word `startxref` or nothing. -/
inductive Spec.ScanEnd (data : Bytes) (q : Nat) : List (Key × Obj) → Prop
  | eof : Unfinished (data.drop q) → ScanEnd data q []
  | trailer {l w pre rest pts ts d} : data.drop q = l ++ w → IsLine l w → kwTrailer <+: l → data.drop q = pre ++ rest → Text q pts pre rest →
      pts.map Prod.snd = .kw kwTrailer :: ts ++ [.kw kwStartxref] → Writes fileDialect ts (.dict d) → ScanEnd data q d
  | last {l w pts ts d} : data.drop q = l ++ w → IsLine l w → kwTrailer <+: l → Text q pts (data.drop q) [] →
      pts.map Prod.snd = .kw kwTrailer :: ts → Writes fileDialect ts (.dict d) → ScanEnd data q d

/-! ### Proof -/

def putAll (offs : List (Int × XPos)) : List (Int × XPos) → List (Int × XPos)
  | [] => offs
  | (i, e) :: es => putAll (dictSet offs i e) es

theorem putAll_append (offs es fs) : putAll offs (es ++ fs) = putAll (putAll offs es) fs := by
  induction es generalizing offs with
  | nil => rfl
  | cons x xs ih => exact ih _

theorem putAll_get (es : List (Int × XPos)) (offs) (i : Int) :
    dictGet (putAll offs es) i = match lastEntry i es with
      | some e => some e
      | none => dictGet offs i := by
  induction es generalizing offs with
  | nil => rfl
  | cons x xs ih =>
    obtain ⟨j, e⟩ := x
    simp only [putAll, lastEntry]
    rw [ih]
    cases h : lastEntry i xs with
    | some y => rfl
    | none =>
      dsimp only
      rw [dictGet_dictSet]
      by_cases hj : j = i
      · rw [if_pos hj, if_pos hj]
      · rw [if_neg hj, if_neg hj]

theorem cue_not_trailer {l i g} (h : Cue l i g) : kwTrailer.isPrefixOf l = false := by
  cases h with
  | @mk d1 s1 d2 s2 r n1 =>
    cases d1 with
    | nil => exact absurd rfl n1.1
    | cons c cs =>
      have hd := n1.2 c (by simp)
      have : (116 : UInt8) ≠ c := by rintro rfl; revert hd; decide
      simp [kwTrailer, List.isPrefixOf, this]

theorem isPrefixOf_false {a l : Bytes} (h : ¬ a <+: l) : a.isPrefixOf l = false := by
  rw [← Bool.not_eq_true, List.isPrefixOf_iff_prefix]; exact h

theorem addObjs_index (objid : Int) (index : List (Int × Int)) (done : List (Int × Int)) (os : List Obj) (offs) :
    addObjs objid ((done ++ index).flatMap (fun x => [.int x.1, .int x.2]) ++ os) index.length done.length offs =
      .ok (putAll offs (index.mapIdx (fun k x => (x.1, some objid, ((done.length + k : Nat) : Int), 0)))) := by
  induction index generalizing done offs with
  | nil => rfl
  | cons x xs ih =>
    have hl : ∀ l : List (Int × Int), (l.flatMap (fun p => [Obj.int p.1, Obj.int p.2])).length = l.length * 2 := by
      intro l
      induction l with
      | nil => rfl
      | cons p ps ih => rw [List.flatMap_cons, List.length_append, ih]; simp; omega
    have hg : ((done ++ x :: xs).flatMap (fun x => [Obj.int x.1, Obj.int x.2]) ++ os)[done.length * 2]? = some (.int x.1) := by
      rw [List.flatMap_append, List.append_assoc, List.getElem?_append_right (by rw [hl]; exact Nat.le_refl _), hl, Nat.sub_self]
      rfl
    rw [List.length_cons]
    unfold addObjs
    rw [hg]
    dsimp only
    have h1 := ih (done ++ [x]) (dictSet offs x.1 (some objid, (done.length : Int), 0))
    rw [List.append_assoc, List.singleton_append, List.length_append, List.length_singleton] at h1
    rw [h1, List.mapIdx_cons]
    simp only [putAll, Nat.add_zero]
    congr 3
    funext k x
    congr 3
    push_cast; omega

theorem loop_object (env : Env σ) (decode) {b : Nat} (hb : 0 < b) {data : Bytes} {p : Nat} {l w : Bytes} {i g : Nat} (hd : data.drop p = l ++ w)
    (hl : IsLine l w) (hc : Cue l i g) {ps : PSt} (hr : Ready data p ps) (fuel : Nat) {q1 : Nat} {o : Obj} {ps1 : PSt} {st : StackSt} (s : σ)
    (hg : nextobjectG env b fuel (PSt.seek data p) {} s = (.ok (q1, o), (ps1, st), s)) (offs offs') (hx : expandObjstm decode b i o (dictSet offs i (none, p, g)) = .ok offs') :
    fallbackLoop env decode b data (fuel + 1) ps offs s = fallbackLoop env decode b data fuel ps1 offs' s := by
  obtain ⟨ps', g1, _⟩ := hr.line hb hd hl
  rw [fallbackLoop, g1]
  dsimp only
  rw [if_neg (by rw [cue_not_trailer hc]; decide), cue_some hc]
  dsimp only
  rw [hg]
  dsimp only
  rw [hx]

theorem region_scan (σ : Type) (decode) {b : Nat} (hb : 0 < b) {data : Bytes} {p : Nat} {es q}
    (h : Region decode data p es q) :
    ∃ N, ∀ env : Env σ, env.Direct → env.fallback = true → ∀ fuel, N ≤ fuel → ∀ ps offs (s : σ), Ready data p ps →
      ∃ ps' fuel', fuel ≤ fuel' + N ∧ fallbackLoop env decode b data fuel ps offs s = fallbackLoop env decode b data fuel' ps' (putAll offs es) s ∧ Ready data q ps' := by
  induction h with
  | done => exact ⟨0, fun env henv hf fuel _ ps offs s hr => ⟨ps, fuel, by omega, rfl, hr⟩⟩
  | line hd hl ht hc _ ih =>
    obtain ⟨N, ih⟩ := ih
    refine ⟨N + 1, fun env henv hf fuel hN ps offs s hr => ?_⟩
    obtain ⟨f, rfl⟩ : ∃ f, fuel = f + 1 := ⟨fuel - 1, by omega⟩
    obtain ⟨ps', g1, g2⟩ := hr.line hb hd hl
    obtain ⟨ps2, f2, h1, h2, h3⟩ := ih env henv hf f (by omega) ps' offs s g2
    refine ⟨ps2, f2, by omega, ?_, h3⟩
    rw [fallbackLoop, g1]
    dsimp only
    rw [if_neg (by rw [isPrefixOf_false ht]; decide), cue_none hc]
    exact h2
  | @object p l w i g pre rest pts ts o es q hd hl hc hd2 htx htk hw hend _ ih =>
    obtain ⟨N, ih⟩ := ih
    refine ⟨N + 1 + (pts.length + 2), fun env henv hf fuel hN ps offs s hr => ?_⟩
    obtain ⟨f, rfl⟩ : ∃ f, fuel = f + 1 := ⟨fuel - 1, by omega⟩
    obtain ⟨q1, st, ps1, k1, k2⟩ := object_then hb env data p i g pre rest pts ts o hd2 htx htk hw hend f (by omega) s
    obtain ⟨ps2, f2, h1, h2, h3⟩ := ih env henv hf f (by omega) ps1 (dictSet offs i (none, p, g)) s k2
    refine ⟨ps2, f2, by omega, ?_, h3⟩
    rw [loop_object env decode hb hd hl hc hr f s k1 offs _ rfl]
    exact h2
  | @stream p l w i g pre eol body gap tail pts ts d es q hd hl hc hd2 htx htk hw heol hfirst hgap hgapw hend hline hty _ ih =>
    obtain ⟨N, ih⟩ := ih
    refine ⟨N + 1 + (pts.length + 4), fun env henv hf fuel hN ps offs s hr => ?_⟩
    obtain ⟨f, rfl⟩ : ∃ f, fuel = f + 1 := ⟨fuel - 1, by omega⟩
    obtain ⟨q1, st, ps1, k1, k2⟩ := stream_then hb env henv hf data p i g pre eol body _ gap tail pts ts d hd2 htx htk hw heol hfirst rfl hgap hgapw hend hline f (by omega) s
    obtain ⟨ps2, f2, h1, h2, h3⟩ := ih env henv hf f (by omega) ps1 (dictSet offs i (none, p, g)) s k2
    refine ⟨ps2, f2, by omega, ?_, h3⟩
    rw [loop_object env decode hb hd hl hc hr f s k1 offs _ (by simp only [expandObjstm]; rw [if_pos hty])]
    exact h2
  | @objstm p l w i g pre eol body gap tail pts ts d text spts es q index os hd hl hc hd2 htx htk hw heol hfirst hgap hgapw hend hline hty hN' hdec hst hsw hnr _ ih =>
    obtain ⟨N, ih⟩ := ih
    refine ⟨N + 1 + (pts.length + 4), fun env henv hf fuel hN ps offs s hr => ?_⟩
    obtain ⟨f, rfl⟩ : ∃ f, fuel = f + 1 := ⟨fuel - 1, by omega⟩
    obtain ⟨q1, st, ps1, k1, k2⟩ := stream_then hb env henv hf data p i g pre eol body _ gap tail pts ts d hd2 htx htk hw heol hfirst rfl hgap hgapw hend hline f (by omega) s
    obtain ⟨ps2, f2, h1, h2, h3⟩ := ih env henv hf f (by omega) ps1 (putAll (dictSet offs i (none, p, g)) (index.mapIdx (fun k x => (x.1, some (i : Int), (k : Int), 0)))) s k2
    refine ⟨ps2, f2, by omega, ?_, h3⟩
    have hcount : (index.flatMap (fun x => [Obj.int x.1, Obj.int x.2]) ++ os).length < text.length + 1 := by
      have := text_count hst
      have := writesSeq_count hsw
      simp only [List.length_map] at this
      omega
    have hr' : ∀ i g, .ref i g ∉ index.flatMap (fun x => [Obj.int x.1, Obj.int x.2]) ++ os := by
      intro i g hm
      rw [List.mem_append] at hm
      rcases hm with hm | hm
      · simp only [List.mem_flatMap] at hm
        obtain ⟨p, _, hp⟩ := hm
        simp at hp
      · exact hnr i g hm
    rw [loop_object env decode hb hd hl hc hr f s k1 offs _ ?_]
    · rw [h2]
      show fallbackLoop _ _ _ _ _ _ _ _ = fallbackLoop _ _ _ _ _ _ (putAll (dictSet offs i (none, p, g)) (_ ++ es)) _
      rw [putAll_append]
    · simp only [expandObjstm]
      rw [if_neg (by simpa using hty), hdec]
      dsimp only
      rw [objstm_objects b hb text spts _ hst hsw hr', if_pos hcount, List.take_of_length_le (by omega), hN']
      dsimp only [Option.getD]
      have hlen : (index.flatMap (fun x => [Obj.int x.1, Obj.int x.2]) ++ os).length = index.length * 2 + os.length := by
        have hl : ∀ l : List (Int × Int), (l.flatMap (fun p => [Obj.int p.1, Obj.int p.2])).length = l.length * 2 := by
          intro l
          induction l with
          | nil => rfl
          | cons p ps ih => rw [List.flatMap_cons, List.length_append, ih]; simp; omega
        rw [List.length_append, hl]
      rw [hlen, show (min (index.length : Int) (((index.length * 2 + os.length) / 2 : Nat) : Int)).toNat = index.length by omega]
      have := addObjs_index i index [] os (dictSet offs i (none, p, g))
      simpa using this

theorem loadTrailer_last (env : Env σ) (henv : env.Direct) {b : Nat} (hb : 0 < b) (data : Bytes) (q : Nat) (pts : List (Nat × Tok))
    (ts : List Tok) (d : List (Key × Obj)) (fuel : Nat) (s : σ) (ht : Text q pts (data.drop q) [])
    (hp : pts.map Prod.snd = .kw kwTrailer :: ts) (hw : Writes fileDialect ts (.dict d)) (hfuel : pts.length + 1 ≤ fuel) :
    ∃ ps, loadTrailer env b fuel data q s = (.ok d, ps, s) := by
  have hlex : lexRun {} q (data.drop q) = (pts, .psEOF) := by
    have := run_text ht
    rw [List.append_nil] at this
    rw [this, lexRun]
    simp [Stream.pre]
  obtain ⟨p1, pts2, rfl, hp2⟩ := map_snd_cons hp
  obtain ⟨ps1, p', g1, g2, g3⟩ := (ready_seek data q).token hb (by rw [stream_seek, hlex])
  unfold loadTrailer
  rw [g1]
  dsimp only
  rw [if_neg (by simp)]
  obtain ⟨q1, hq⟩ := pushes speaks_file hw {} pts2 (Or.inr fun _ => rfl) hp2
  simp only [List.length_cons] at hfuel
  obtain ⟨f, rfl⟩ : ∃ f, fuel = f + 1 + pts2.length := ⟨fuel - 1 - pts2.length, by omega⟩
  obtain ⟨ps2, p2, g4, g5, g6⟩ := nextobjectG_feedAll env hb data pts2 [] .psEOF (f + 1) g2 (by simpa using g3) hq rfl
    (by rw [hp2]; exact writes_no_stream hw) s
  rw [g4, nextobjectG]
  have h1 := nexttoken_spec hb ps2 g5.good.inv
  rw [g6] at h1
  obtain ⟨ps3, h3⟩ : ∃ ps3, ps2.nexttoken b = (.error .psEOF, ps3) := by
    generalize ps2.nexttoken b = r at *
    obtain ⟨r, ps3⟩ := r
    have h2 : r = .error .psEOF := h1.2.1
    exact ⟨ps3, by rw [h2]⟩
  rw [h3]
  simp only [StackSt.push, StackSt.pop]
  simp [Env.dictValue, henv (.dict d) s (by simp)]

/-- C70. A scan for objects of a file that is a series of objects, streams and other lines, up to its end or to a line that begins with
`trailer`: the entries found are those of the objects in the file - the last one if there are several for the same number - and the trailer
dictionary is the one written there. -/
theorem recover (σ : Type) (decode : List (Key × Obj) → Bytes → Except PyErr Bytes) (b : Nat) (hb : 0 < b)
    (data : Bytes) (es : List (Int × XPos)) (q : Nat) (d : List (Key × Obj)) (h : Region decode data 0 es q) (he : ScanEnd data q d) :
    ∃ N t, (∀ env : Env σ, env.Direct → env.fallback = true → ∀ fuel ≥ N, ∀ s : σ, fallbackLoad env decode b fuel data s = (.ok t, s)) ∧ t.trailer = d ∧
      ∀ i, t.getPos i = match lastEntry i es with
        | some e => .ok e
        | none => .error .keyError := by
  obtain ⟨N, hN⟩ := region_scan σ decode hb h
  have fin : ∃ M, ∀ env : Env σ, env.Direct → env.fallback = true → ∀ fuel ≥ M, ∀ ps offs (s : σ), Ready data q ps → fallbackLoop env decode b data fuel ps offs s = (.ok ⟨offs, d⟩, s) := by
    cases he with
    | eof hu =>
      refine ⟨1, fun env henv hf fuel hM ps offs s hr => ?_⟩
      obtain ⟨f, rfl⟩ : ∃ f, fuel = f + 1 := ⟨fuel - 1, by omega⟩
      obtain ⟨ps', g⟩ := hr.eof hb hu
      rw [fallbackLoop, g]
    | @trailer l w pre rest pts ts d hd hl ht hd2 htx htk hw =>
      refine ⟨ts.length + 3, fun env henv hf fuel hM ps offs s hr => ?_⟩
      obtain ⟨f, rfl⟩ : ∃ f, fuel = f + 1 := ⟨fuel - 1, by omega⟩
      obtain ⟨ps', g1, g2⟩ := hr.line hb hd hl
      obtain ⟨ps3, g5⟩ := loadTrailer_ok env henv hb data q pre rest pts ts d f s hd2 htx htk hw (by omega)
      rw [fallbackLoop, g1]
      dsimp only
      rw [if_pos (List.isPrefixOf_iff_prefix.2 ht), g5]
      dsimp only
      rw [dictUpdate_nodup _ _ (by simpa using writes_dict_nodup hw)]
      rfl
    | @last l w pts ts d hd hl ht htx htk hw =>
      refine ⟨pts.length + 2, fun env henv hf fuel hM ps offs s hr => ?_⟩
      obtain ⟨f, rfl⟩ : ∃ f, fuel = f + 1 := ⟨fuel - 1, by omega⟩
      obtain ⟨ps', g1, g2⟩ := hr.line hb hd hl
      obtain ⟨ps3, g5⟩ := loadTrailer_last env henv hb data q pts ts d f s htx htk hw (by omega)
      rw [fallbackLoop, g1]
      dsimp only
      rw [if_pos (List.isPrefixOf_iff_prefix.2 ht), g5]
      dsimp only
      rw [dictUpdate_nodup _ _ (by simpa using writes_dict_nodup hw)]
      rfl
  obtain ⟨M, hM⟩ := fin
  refine ⟨N + M, ⟨putAll [] es, d⟩, fun env henv hf fuel hfu s => ?_, rfl, fun i => ?_⟩
  · obtain ⟨ps', f', h1, h2, h3⟩ := hN env henv hf fuel (by omega) (PSt.seek data 0) [] s (ready_seek data 0)
    unfold fallbackLoad
    rw [h2, hM env henv hf f' (by omega) ps' _ s h3]
  · unfold XTable.getPos
    dsimp only
    rw [putAll_get]
    cases lastEntry i es <;> rfl

/-! ### A file -/

/-- `i g obj o endobj LF` -/
def printSimple (i g : Int) (o : Obj) : Bytes := printToks ([.int i, .int g, .kw kwObj] ++ objToks o) ++ (kwEndobj ++ [10])

/-- `junk LF 1 0 obj 7 endobj LF 1 2 obj 8 endobj LF t` -/
def damaged : Bytes := [106, 117, 110, 107, 10] ++ (printSimple 1 0 (.int 7) ++ (printSimple 1 2 (.int 8) ++ [116]))

theorem cue_demo (a g : UInt8) (h : Digit a ∧ Digit g) (r : Bytes) : Cue ([a, 32, g, 32, 111, 98, 106, 32] ++ r) (decimal [a]) (decimal [g]) :=
  Cue.mk (d1 := [a]) (s1 := [32]) (d2 := [g]) (s2 := [32]) (r := 32 :: r) ⟨by simp, by simpa using h.1⟩ (by simp) (by decide) ⟨by simp, by simpa using h.2⟩
    (by simp) (by decide) (by simp; unfold WordL; decide)

theorem no_cue {c : UInt8} {cs : Bytes} (h : ¬ Digit c) : ∀ i g, ¬ Cue (c :: cs) i g := by
  intro i g hc
  generalize hl : c :: cs = l at hc
  cases hc with
  | @mk d1 s1 d2 s2 r n1 =>
    cases d1 with
    | nil => exact absurd rfl n1.1
    | cons x xs =>
      simp only [List.cons_append, List.cons.injEq] at hl
      exact h (hl.1 ▸ n1.2 x (by simp))

theorem printable_head {i g n : Int} : ∀ t ∈ [Tok.int i, .int g, .kw kwObj] ++ objToks (.int n), Printable t := by
  have : Printable (.kw kwObj) := Or.inr ⟨111, [98, 106], rfl, by decide, by decide, by decide, by decide⟩
  simp [objToks, this]
  simp [Printable]

deriving instance DecidableEq for XTable

/-- The hypotheses of `recover` are met by `damaged`, where object 1 occurs twice. -/
theorem damaged_region (decode) : Region decode damaged 0 [(1, none, 5, 0), (1, none, 22, 2)] 39 ∧ ScanEnd damaged 39 [] := by
  refine ⟨?_, .eof (Or.inl ?_)⟩
  · refine .line (l := [106, 117, 110, 107, 10]) rfl (.lf (body := [106, 117, 110, 107]) (by unfold NoEol; decide)) (by decide +kernel) (no_cue (by decide +kernel)) ?_
    obtain ⟨pts1, h1, t1⟩ := text_print ([.int 1, .int 0, .kw kwObj] ++ objToks (.int 7)) printable_head 5
      (kwEndobj ++ ([10] ++ (printSimple 1 2 (.int 8) ++ [116])))
    refine .object (i := 1) (g := 0) (l := [49, 32, 48, 32, 111, 98, 106, 32, 55, 32, 101, 110, 100, 111, 98, 106, 10]) (w := printSimple 1 2 (.int 8) ++ [116])
      (by decide +kernel) (.lf (body := [49, 32, 48, 32, 111, 98, 106, 32, 55, 32, 101, 110, 100, 111, 98, 106]) (by unfold NoEol; decide))
      (cue_demo 49 48 (by decide +kernel) _) (by decide +kernel) t1 h1 (.int 7) ⟨10, _, rfl, by decide, by decide⟩ ?_
    refine .line (l := [10]) (w := printSimple 1 2 (.int 8) ++ [116]) (by decide +kernel) (.lf (body := []) (by unfold NoEol; decide)) (by decide +kernel) (no_cue (by decide +kernel)) ?_
    obtain ⟨pts1, h1, t1⟩ := text_print ([.int 1, .int 2, .kw kwObj] ++ objToks (.int 8)) printable_head 22 (kwEndobj ++ ([10] ++ [116]))
    have hp : 0 + ([106, 117, 110, 107, 10] : Bytes).length + (printToks ([Tok.int 1, Tok.int 0, Tok.kw kwObj] ++ objToks (Obj.int 7))).length + 6 + ([10] : Bytes).length = 22 := by
      decide +kernel
    rw [hp]
    refine Region.object (p := 22) (i := 1) (g := 2) (l := [49, 32, 50, 32, 111, 98, 106, 32, 56, 32, 101, 110, 100, 111, 98, 106, 10]) (w := [116])
      (by decide +kernel) (.lf (body := [49, 32, 50, 32, 111, 98, 106, 32, 56, 32, 101, 110, 100, 111, 98, 106]) (by unfold NoEol; decide))
      (cue_demo 49 50 (by decide +kernel) _) (by decide +kernel) t1 h1 (.int 8) ⟨10, _, rfl, by decide, by decide⟩ ?_
    have hp : 22 + (printToks ([Tok.int 1, Tok.int 2, Tok.kw kwObj] ++ objToks (Obj.int 8))).length + 6 = 38 := by decide +kernel
    rw [hp]
    exact .line (l := [10]) (w := [116]) (by decide +kernel) (.lf (body := []) (by unfold NoEol; decide)) (by decide +kernel) (no_cue (by decide +kernel)) .done
  · unfold NoEol; decide +kernel

/-- `recover` says that object 1 of `damaged` is at offset 22. -/
example : ∃ N t, (∀ fuel ≥ N, fallbackLoad (plainEnv true) (fun _ raw => .ok raw) 16 fuel damaged () = (.ok t, ())) ∧ t.getPos 1 = .ok (none, 22, 2) ∧
    t.getPos 2 = .error .keyError := by
  obtain ⟨h1, h2⟩ := damaged_region (fun _ raw => .ok raw)
  obtain ⟨N, t, h3, _, h4⟩ := recover Unit _ 16 (by decide) _ _ _ _ h1 h2
  exact ⟨N, t, fun fuel hf => h3 (plainEnv true) (plainEnv_direct true) rfl fuel hf (), h4 1, h4 2⟩

/-- A file with an object stream and a trailer: object 2 is the first object of the object stream 3. -/
example : (fallbackLoad (plainEnv true) (fun _ raw => .ok raw) 16 40
    (printStream 3 0 [(nameType, .name nameObjStm), (nameN, .int 1)] [50, 32, 48, 32, 47, 81, 32] ++
      printToks ([.kw kwTrailer] ++ objToks (.dict [(nameN, .int 4)]) ++ [.kw kwStartxref]) ++ [10]) ()).1 =
    .ok ⟨[(3, none, 0, 0), (2, some 3, 0, 0)], [(nameN, .int 4)]⟩ := by decide +kernel

end Pdf

import Verif.Props.Document
/-! C66: objects in object streams; witnesses for C25, C26, C28. -/

namespace Pdf
open Spec

/-! ### The bound on the number of objects in `getObjects` -/

/-- All objects on the stacks. -/
def StackSt.size (st : StackSt) : Nat := st.results.length + st.curstack.length + (st.context.map fun c => c.2.2.length).sum

theorem size_closeSeq (st st' : StackSt) (t) (h : st.closeSeq t = .ok st') : st'.size ≤ st.size + 1 := by
  obtain ⟨ctx, ty, cs, rs⟩ := st
  unfold StackSt.closeSeq StackSt.endType at h
  dsimp only at h
  split at h
  · rename_i hx
    split at hx
    · cases hx
    · split at hx
      · cases hx; cases h
        simp [StackSt.size, StackSt.push]; omega
      · cases hx
  · split at h
    · cases h; omega
    · cases h

theorem size_closeDict (st st' : StackSt) (h : st.closeDict = .ok st') : st'.size ≤ st.size + 1 := by
  obtain ⟨ctx, ty, cs, rs⟩ := st
  unfold StackSt.closeDict StackSt.endType at h
  dsimp only at h
  split at h
  · rename_i hx
    split at hx
    · cases hx
    · split at hx
      · cases hx
        split at h
        · cases h
        · split at h
          · cases h
            simp [StackSt.size, StackSt.push]; omega
          · cases h
      · cases hx
  · split at h
    · cases h; omega
    · cases h

theorem size_doRef (st st' : StackSt) (p) (h : st.doRef p = .ok st') : st'.size ≤ st.size + 1 := by
  unfold StackSt.doRef at h
  split at h
  · split at h
    · cases h
    · split at h
      · cases h
      · cases h
        simp [StackSt.size, StackSt.push, StackSt.pop]; omega
  · cases h

theorem size_feed (st st' : StackSt) (p t) (h : st.feed streamHooks p t = .ok st') : st'.size ≤ st.size + 1 := by
  unfold StackSt.feed at h
  have hb : ∀ s, st.feedBody streamHooks p t = .ok s → s.size ≤ st.size + 1 := by
    intro s hs
    unfold StackSt.feedBody at hs
    split at hs
    · cases hs; simp [StackSt.size, StackSt.push]; omega
    · cases hs; simp [StackSt.size, StackSt.push]; omega
    · cases hs; simp [StackSt.size, StackSt.push]; omega
    · cases hs; simp [StackSt.size, StackSt.push]; omega
    · cases hs; simp [StackSt.size, StackSt.push]; omega
    · split at hs
      · cases hs; simp [StackSt.size, StackSt.startType]; omega
      · split at hs
        · exact size_closeSeq _ _ _ hs
        · split at hs
          · cases hs; simp [StackSt.size, StackSt.startType]; omega
          · split at hs
            · exact size_closeDict _ _ hs
            · split at hs
              · cases hs; simp [StackSt.size, StackSt.startType]; omega
              · split at hs
                · exact size_closeSeq _ _ _ hs
                · simp only [streamHooks] at hs
                  split at hs
                  · exact size_doRef _ _ _ hs
                  · split at hs
                    · cases hs; omega
                    · cases hs; simp [StackSt.size, StackSt.push]; omega
  rcases hx : st.feedBody streamHooks p t with e | s
  · rw [hx] at h; cases h
  · rw [hx] at h
    have := hb s hx
    simp only [Hooks.settle] at h
    split at h
    · cases h
      simp [StackSt.size, streamHooks, StackSt.flushAll] at this ⊢
      omega
    · cases h; exact this

theorem feedRun_count (e : PyErr) (ts : List (Nat × Tok)) (st : StackSt) : (feedRun streamHooks st e ts).1.length ≤ st.size + ts.length := by
  induction ts generalizing st with
  | nil => simp [feedRun, StackSt.size]; omega
  | cons x xs ih =>
    obtain ⟨p, t⟩ := x
    simp only [feedRun]
    rcases hx : st.feed streamHooks p t with e | st'
    · simp [StackSt.size]; omega
    · have h1 := size_feed st st' p t hx
      have h2 := ih st'
      simp only [List.length_cons]
      omega

/-- The bound in `getObjects` is never reached: an object stream of `n` bytes has at most `n` objects. -/
theorem getObjects_complete (b : Nat) (hb : 0 < b) (data : Bytes) :
    ∃ os e, parseObjects streamHooks b data (data.length + 1) = (os, some e) ∧ ∀ n, data.length < n → parseObjects streamHooks b data n = (os, some e) := by
  rcases hx : feedRun streamHooks {} (lexRun {} 0 data).2 (lexRun {} 0 data).1 with ⟨xs, e⟩
  have h1 := feedRun_count (lexRun {} 0 data).2 (lexRun {} 0 data).1 {}
  rw [hx] at h1
  have h2 := lexRun_count data {} 0
  have h3 : ({} : LexSt).pend = 0 := rfl
  have h4 : ({} : StackSt).size = 0 := rfl
  have hn : ∀ n, data.length < n → parseObjects streamHooks b data n = (xs.map Prod.snd, some e) := fun n hn =>
    parseObjects_spec frame_stream hb data n xs e hx (by dsimp only at h1; omega)
  exact ⟨_, e, hn _ (by omega), hn⟩

theorem text_count {p ts a b} (h : Text p ts a b) : ts.length ≤ a.length := by
  induction h with
  | nil => simp
  | white _ _ ih => simp; omega
  | comment _ _ _ ih => simp; omega
  | @tok p t k ts e a b he hk _ ih =>
    have : 0 < e.length := by
      cases he with
      | int _ h _ => have := List.length_pos_iff.2 h; simp; omega
      | _ => simp <;> omega
    simp; omega

mutual
theorem writes_pos {D : Dialect} {ts o} (h : Writes D ts o) : 0 < ts.length := by
  cases h <;> simp
theorem writesSeq_count {D : Dialect} {ts os} (h : WritesSeq D ts os) : os.length ≤ ts.length :=
  match h with
  | .nil => by simp
  | .cons ho hs => by
    have h1 := writes_pos ho
    have h2 := writesSeq_count hs
    simp; omega
end

/-- C66. An object stream whose data are `n` pairs of numbers followed by objects; the section says that object `i` is the
`k`-th object of stream `strmid`. The object returned is that one. -/
theorem objstm_object (D : Doc) (hb : 0 < D.bufsiz) {s : Cache} (hs : Reach D s) (i : Int) (hi : i ≠ 0)
    (newer older x) (hx : D.xrefs = newer ++ x :: older) (hskip : ∀ y ∈ newer, y i = .error .keyError)
    (strmid : Int) (k : Nat) (gen g : Int) (hp : x i = .ok (some strmid, k, gen))
    (d : List (Key × Obj)) (raw data : Bytes) (hstrm : D.Yields true s strmid (.ok (.stream d raw, g)))
    (hdec : D.decode (some (strmid, g)) d raw = .ok data)
    (pts : List (Nat × Tok)) (header os : List Obj) (ht : Text 0 pts data []) (hw : WritesSeq objstmDialect (pts.map Prod.snd) (header ++ os))
    (hr : ∀ i g, .ref i g ∉ header ++ os) (n : Nat) (hN : dictGet d nameN = some (.int n)) (hh : header.length = 2 * n)
    (o : Obj) (ho : os[k]? = some o) :
    D.Yields true s i (.ok (o, gen)) := by
  refine newest_wins D hb hs i hi newer older x (some strmid, k, gen) o hx (fun y hy => Or.inl (hskip y hy)) hp ?_
  rw [cache_transparency D hb hs, yields_evt D hb] at hstrm
  refine hstrm.2.mono fun m hm => ?_
  dsimp only [loadEntry]
  rw [loadObjstm_eq]
  have h1 : loadTag (getobj D false m) m strmid {} = (.ok (.stream d raw, some (strmid, g)), {}) := by
    unfold loadTag
    rw [uncached_eq D hb, hm]
    cases m <;> rfl
  rw [h1]
  dsimp only [asStream]
  rw [getobjObjstm_false]
  unfold objstm getObjects
  rw [hdec]
  dsimp only
  have hc : (header ++ os).length < data.length + 1 := by
    have := text_count ht
    have := writesSeq_count hw
    simp only [List.length_map] at this
    omega
  rw [objstm_objects D.bufsiz hb data pts (header ++ os) ht hw hr, if_pos hc, List.take_of_length_le (by omega), hN]
  dsimp only [Option.getD, objAt]
  have hidx : ((n : Int) * 2 + (k : Int)) = ((2 * n + k : Nat) : Int) := by push_cast; omega
  rw [hidx, if_neg (by omega), if_neg (by omega), Int.toNat_natCast, List.getElem?_append_right (by omega), hh,
    Nat.add_sub_cancel_left, ho]

/-- C66, writing and reading: an object stream printed from its objects. -/
theorem objstm_object_printed (D : Doc) (hb : 0 < D.bufsiz) {s : Cache} (hs : Reach D s) (i : Int) (hi : i ≠ 0)
    (newer older x) (hx : D.xrefs = newer ++ x :: older) (hskip : ∀ y ∈ newer, y i = .error .keyError)
    (strmid : Int) (k : Nat) (gen g : Int) (hp : x i = .ok (some strmid, k, gen))
    (d : List (Key × Obj)) (raw : Bytes) (hstrm : D.Yields true s strmid (.ok (.stream d raw, g)))
    (index : List (Int × Int)) (os : List Obj)
    (hdec : D.decode (some (strmid, g)) d raw = .ok (printToks (seqToks (index.flatMap (fun p => [.int p.1, .int p.2]) ++ os))))
    (hN : dictGet d nameN = some (.int index.length)) (hos : WFs os) (hr : ∀ i g, .ref i g ∉ os) (o : Obj) (ho : os[k]? = some o) :
    D.Yields true s i (.ok (o, gen)) := by
  have hwf : WFs (index.flatMap (fun p => [.int p.1, .int p.2]) ++ os) := by
    clear hdec hN
    induction index with
    | nil => exact hos
    | cons p ps ih => exact ⟨trivial, trivial, ih⟩
  obtain ⟨pts, h1, h2⟩ := text_print _ (printable_seq _ hwf) 0 []
  refine objstm_object D hb hs i hi newer older x hx hskip strmid k gen g hp d raw _ hstrm hdec pts _ os h2 (h1 ▸ writes_seq rfl _ hwf) ?_
    index.length hN ?_ o ho
  · intro i g hm
    rw [List.mem_append] at hm
    rcases hm with hm | hm
    · simp only [List.mem_flatMap] at hm
      obtain ⟨p, _, hp⟩ := hm
      simp at hp
    · exact hr i g hm
  · have hl : ∀ l : List (Int × Int), (l.flatMap (fun p => [Obj.int p.1, Obj.int p.2])).length = 2 * l.length := by
      intro l
      induction l with
      | nil => rfl
      | cons p ps ih => rw [List.flatMap_cons, List.length_append, ih]; simp; omega
    exact hl index

/-! ### A document -/

/-- `4 0 obj 7 endobj  1 0 obj [ 4 0 R ] endobj` and an object stream `3 0 obj << /N 1 >> stream 2 0 /Q endstream endobj`. -/
def demoFile : Bytes :=
  printToks ([.int 4, .int 0, .kw kwObj] ++ objToks (.int 7) ++ [.kw kwEndobj]) ++
  (printToks ([.int 1, .int 0, .kw kwObj] ++ objToks (.ref 4 0) ++ [.kw kwEndobj]) ++
  printStream 3 0 [(nameN, .int 1)] [50, 32, 48, 32, 47, 81, 32])

def demoFive : Bytes := printToks ([.int 5, .int 0, .kw kwObj] ++ objToks (.ref 5 0) ++ [.kw kwEndobj])
def demoSix : Bytes := printToks ([.int 6, .int 0, .kw kwObj] ++ objToks (.int 8) ++ [.kw kwEndobj])

/-- The newer section has 1 (as it is in the file), 2 (in stream 3), 3 and 6 (in a stream that does not exist); the older one
has 1 at the place of 4, 4, 6, and 5, which is a reference to itself. -/
def demoDoc : Doc where
  data := demoFile ++ demoFive ++ demoSix
  bufsiz := 16
  fallback := true
  xrefs := [fun i => if i = 1 then .ok (none, 17, 0) else if i = 2 then .ok (some 3, 0, 0) else if i = 3 then .ok (none, 38, 0)
      else if i = 6 then .ok (some 9, 0, 0) else .error .keyError,
    fun i => if i = 1 then .ok (none, 0, 0) else if i = 4 then .ok (none, 0, 0) else if i = 6 then .ok (none, (demoFile ++ demoFive).length, 0)
      else if i = 5 then .ok (none, demoFile.length, 0) else .error .keyError]
  decode _ _ raw := .ok raw
  decipher := none

theorem demo_lookups : (getobj demoDoc true 30 1 {}).1 = .ok (.ref 4 0, 0) ∧ (getobj demoDoc true 30 2 {}).1 = .ok (.name [81], 0) ∧
    (getobj demoDoc true 30 4 {}).1 = .ok (.int 7, 0) ∧ (resolve1 (getobj demoDoc true 30) 30 (.ref 1 0) {}).1 = .ok (.int 7) ∧
    (getobj demoDoc true 30 7 {}).1 = .error .pdfObjectNotFound ∧ (resolve1 (getobj demoDoc true 30) 30 (.ref 7 0) {}).1 = .ok .null := by
  decide +kernel

/-- The caches are really used: after looking up 2, the stream and its objects are kept. -/
example : (getobj demoDoc true 30 2 {}).2.objs.map Prod.fst = [3, 2] ∧ (getobj demoDoc true 30 2 {}).2.parsed.map Prod.fst = [some 3] := by
  decide +kernel

/-- C26: the claim that an object is reported missing only if no section yields it fails: the newer section puts object 6 into
an object stream that does not exist, and although the older section has a place for it, it is reported missing. -/
theorem missing_stream_hides_older : (getobj demoDoc true 30 6 {}).1 = .error .pdfObjectNotFound ∧
    (getobj { demoDoc with xrefs := demoDoc.xrefs.drop 1 } true 30 6 {}).1 = .ok (.int 8, 0) := by
  decide +kernel

/-- C28: the hypothesis of `cycle_diverges` holds of object 5. -/
example : (getobj demoDoc false 30 5 {}).1 = .ok (.ref 5 0, 0) := by decide +kernel

end Pdf

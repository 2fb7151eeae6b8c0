import Verif.Props.Show
/-! Boxes of text (C40) and painted paths (C41). -/

namespace Pdf
open Pdf.Spec

/-! ### C40: text -/

/-- The corners of a box. -/
def Bbox.corners (b : Bbox) : List (ℚ × ℚ) := [(b.x0, b.y0), (b.x1, b.y1)]

/-- The characters and blocks have boxes in order, and each is the smallest around its members. -/
structure CharBlockOk (b : CharBlock) : Prop where
  chars : b.chars ≠ []
  ordered : b.bbox.Ok ∧ ∀ c ∈ b.chars, c.2.1.Ok
  smallest : SmallestBox b.bbox (b.chars.flatMap fun c => c.2.1.corners)

/-- A text block: no box without characters, otherwise the smallest one. -/
structure TextBlockOk (t : TextBlock) : Prop where
  blocks : ∀ b ∈ t.blocks, CharBlockOk b
  none : t.bbox = none ↔ t.blocks = []
  smallest : ∀ b, t.bbox = some b → b.Ok ∧ SmallestBox b (t.blocks.flatMap fun c => c.bbox.corners)

theorem mem_corners {b : Bbox} {x0 y0 x1 y1 : ℚ} : (∀ p ∈ b.corners, p ∈ Box x0 y0 x1 y1) ↔
    (x0 ≤ b.x0 ∧ b.x0 ≤ x1 ∧ y0 ≤ b.y0 ∧ b.y0 ≤ y1) ∧ (x0 ≤ b.x1 ∧ b.x1 ≤ x1 ∧ y0 ≤ b.y1 ∧ b.y1 ≤ y1) := by
  simp [Bbox.corners, Box]

theorem smallest_singleton {b : Bbox} (h : b.Ok) : SmallestBox b b.corners := by
  refine ⟨mem_corners.2 ⟨⟨le_refl _, h.1, le_refl _, h.2⟩, ⟨h.1, le_refl _, h.2, le_refl _⟩⟩, fun x0 y0 x1 y1 hp => ?_⟩
  obtain ⟨⟨h1, _, h2, _⟩, ⟨_, h3, _, h4⟩⟩ := mem_corners.1 hp
  exact ⟨h1, h2, h3, h4⟩

/-- The box around two boxes. -/
def joinBox (b c : Bbox) : Bbox := ⟨min b.x0 c.x0, min b.y0 c.y0, max b.x1 c.x1, max b.y1 c.y1⟩

theorem join_ok {b c : Bbox} (hb : b.Ok) : (joinBox b c).Ok :=
  ⟨(min_le_left _ _).trans (hb.1.trans (le_max_left _ _)), (min_le_left _ _).trans (hb.2.trans (le_max_left _ _))⟩

theorem smallest_join {b c : Bbox} {ps : List (ℚ × ℚ)} (hb : SmallestBox b ps) (hc : c.Ok) : SmallestBox (joinBox b c) (ps ++ c.corners) := by
  constructor
  · intro p hp
    rcases List.mem_append.1 hp with hp | hp
    · obtain ⟨h1, h2, h3, h4⟩ := hb.contains p hp
      exact ⟨(min_le_left _ _).trans h1, h2.trans (le_max_left _ _), (min_le_left _ _).trans h3, h4.trans (le_max_left _ _)⟩
    · obtain ⟨h1, h2, h3, h4⟩ := (smallest_singleton hc).contains p hp
      exact ⟨(min_le_right _ _).trans h1, h2.trans (le_max_right _ _), (min_le_right _ _).trans h3, h4.trans (le_max_right _ _)⟩
  · intro x0 y0 x1 y1 hp
    obtain ⟨h1, h2, h3, h4⟩ := hb.least x0 y0 x1 y1 fun p h => hp p (List.mem_append_left _ h)
    obtain ⟨k1, k2, k3, k4⟩ := (smallest_singleton hc).least x0 y0 x1 y1 fun p h => hp p (List.mem_append_right _ h)
    exact ⟨le_min h1 k1, le_min h2 k2, max_le h3 k3, max_le h4 k4⟩

theorem charBounds_spec (cs : List (Text × (ℚ × ℚ) × (ℚ × ℚ))) (hcs : ∀ c ∈ cs, c.2.1.1 ≤ c.2.2.1 ∧ c.2.1.2 ≤ c.2.2.2) (b : Bbox) (hb : b.Ok)
    (ps : List (ℚ × ℚ)) (hs : SmallestBox b ps) :
    (charBounds b cs).Ok ∧ SmallestBox (charBounds b cs) (ps ++ cs.flatMap fun c => [c.2.1, c.2.2]) := by
  induction cs generalizing b ps with
  | nil => simpa [charBounds] using ⟨hb, hs⟩
  | cons c cs ih =>
    obtain ⟨t, ⟨nx0, ny0⟩, ⟨nx1, ny1⟩⟩ := c
    obtain ⟨h1, h2⟩ := hcs _ (List.mem_cons_self ..)
    simp only at h1 h2
    have hj : (⟨min (min b.x0 b.x1) (min nx0 nx1), min (min b.y0 (max (max b.y0 b.y1) (max ny0 ny1))) (min ny0 ny1),
        max (max (min (min b.x0 b.x1) (min nx0 nx1)) b.x1) (max nx0 nx1), max (max b.y0 b.y1) (max ny0 ny1)⟩ : Bbox) = joinBox b ⟨nx0, ny0, nx1, ny1⟩ := by
      have hx := hb.1
      have hy := hb.2
      have e1 : min b.x0 b.x1 = b.x0 := min_eq_left hx
      have e2 : min nx0 nx1 = nx0 := min_eq_left h1
      have e3 : max nx0 nx1 = nx1 := max_eq_right h1
      have e4 : min ny0 ny1 = ny0 := min_eq_left h2
      have e5 : max ny0 ny1 = ny1 := max_eq_right h2
      have e6 : max b.y0 b.y1 = b.y1 := max_eq_right hy
      have e7 : max (min b.x0 nx0) b.x1 = b.x1 := max_eq_right ((min_le_left _ _).trans hx)
      have e8 : min b.y0 (max b.y1 ny1) = b.y0 := min_eq_left (hy.trans (le_max_left _ _))
      simp only [e1, e2, e3, e4, e5, e6, e7, e8, joinBox]
    simp only [charBounds, hj]
    have := ih (fun c hc => hcs c (List.mem_cons_of_mem _ hc)) _ (join_ok hb) _ (smallest_join (c := ⟨nx0, ny0, nx1, ny1⟩) hs ⟨h1, h2⟩)
    simpa [List.append_assoc, Bbox.corners] using this

theorem charBlock_ok {font : Font} {size : Obj} {color : Color} {cs : List (Text × (ℚ × ℚ) × (ℚ × ℚ))} {b : CharBlock}
    (hcs : ∀ c ∈ cs, c.2.1.1 ≤ c.2.2.1 ∧ c.2.1.2 ≤ c.2.2.2) (h : mkCharBlock font size color cs = .ok b) : CharBlockOk b := by
  cases cs with
  | nil => cases h
  | cons c cs =>
    simp only [mkCharBlock] at h
    cases h
    obtain ⟨h1, h2⟩ := hcs _ (List.mem_cons_self ..)
    have hb : (⟨c.2.1.1, c.2.1.2, c.2.2.1, c.2.2.2⟩ : Bbox).Ok := ⟨h1, h2⟩
    obtain ⟨k1, k2⟩ := charBounds_spec cs (fun d hd => hcs d (List.mem_cons_of_mem _ hd)) _ hb _ (smallest_singleton hb)
    have hmk : ∀ d ∈ c :: cs, (mkChar font d).2.1 = ⟨d.2.1.1, d.2.1.2, d.2.2.1, d.2.2.2⟩ := by
      intro d hd
      obtain ⟨e1, e2⟩ := hcs d hd
      simp only [mkChar, mkBbox, min_eq_left e1, min_eq_left e2, max_eq_right e1, max_eq_right e2]
    have hbb : ∀ r : Bbox, r.Ok → mkBbox r.x0 r.y0 r.x1 r.y1 = r := by
      intro r hr
      simp only [mkBbox, min_eq_left hr.1, min_eq_left hr.2, max_eq_right hr.1, max_eq_right hr.2]
    refine ⟨by simp, ⟨mkBbox_ok .., ?_⟩, ?_⟩
    · intro d hd
      obtain ⟨e, he, rfl⟩ := List.mem_map.1 hd
      exact mkBbox_ok ..
    · rw [hbb _ k1]
      have : ((c :: cs).map (mkChar font)).flatMap (fun c => c.2.1.corners) = (c :: cs).flatMap fun c => [c.2.1, c.2.2] := by
        rw [List.flatMap_map]
        apply List.flatMap_congr
        intro d hd
        rw [hmk d hd]
        rfl
      simp only [this]
      exact k2

theorem charBbox_ordered {font : Font} {p : ShowPar} {m : Mat} {cid : Int} {r : ℚ × (ℚ × ℚ) × (ℚ × ℚ)} (h : charBbox font p m cid = .ok r) :
    r.2.1.1 ≤ r.2.2.1 ∧ r.2.1.2 ≤ r.2.2.2 := by
  simp only [charBbox, bind, Except.bind] at h
  split at h
  · cases h
  · split at h
    · cases h
    · split at h
      · split at h
        · cases h
        · split at h
          · cases h
          · cases h; exact ⟨min_le_max, min_le_max⟩
      · split at h
        · cases h
        · split at h
          · cases h
          · cases h; exact ⟨min_le_max, min_le_max⟩

/-- The corners of all characters are in order. -/
def Render.Ordered (r : Render) : Prop := ∀ c ∈ r.chars, c.2.1.1 ≤ c.2.2.1 ∧ c.2.1.2 ≤ c.2.2.2

theorem renderCids_ordered {font : Font} {p : ShowPar} {ig : Bool} {cids : List Int} {r r' : Render} (hr : r.Ordered)
    (h : renderCids font p ig cids r = .ok r') : r'.Ordered := by
  induction cids generalizing r with
  | nil => cases h; exact hr
  | cons c cids ih =>
    simp only [renderCids] at h
    split at h
    · cases h
    · rename_i r1 h1
      refine ih ?_ h
      simp only [renderCid, bind, Except.bind] at h1
      split at h1
      · cases h1
      · split at h1
        · cases h1
        · rename_i b hb
          cases h1
          intro d hd
          rcases List.mem_append.1 hd with hd | hd
          · exact hr d hd
          · obtain rfl := List.mem_singleton.1 hd
            exact charBbox_ordered hb

theorem renderSeq_ordered {font : Font} {p : ShowPar} {ig : Bool} {seq : List Obj} {r r' : Render} (hr : r.Ordered)
    (h : renderSeq font p ig seq r = .ok r') : r'.Ordered := by
  induction seq generalizing r with
  | nil => cases h; exact hr
  | cons o os ih =>
    simp only [renderSeq] at h
    split at h
    · cases h
    · rename_i r1 h1
      refine ih ?_ h
      simp only [renderObj] at h1
      split at h1
      · cases h1; exact hr
      · split at h1
        · split at h1
          · cases h1
          · exact renderCids_ordered hr h1
        · cases h1

/-- What the interpreter promises about its items. -/
inductive ItemOk : Item → Prop where
  | curve (c : Curve) (h : c.bbox.Ok) : ItemOk (.curve c)
  | text (t : TextBlock) (h : TextBlockOk t) : ItemOk (.text t)
  | image (d : List (Key × Obj)) (data : Bytes) (b : Bbox) (h : b.Ok) : ItemOk (.image d data b)
  | xobj (st : Obj) (b : Bbox) (res : Obj) (m : Mat) (cs : List Item) (hb : b.Ok) (h : ∀ c ∈ cs, ItemOk c) : ItemOk (.xobj st b res m cs)
  | none : ItemOk .none

/-- The invariant of the interpreter. -/
structure StOk (s : St) : Prop where
  block : ∀ t, s.block = some t → TextBlockOk t
  done : ∀ i ∈ s.done, ItemOk i

theorem showText_ok {seq : List Obj} {s s' : St} (hs : StOk s) (h : showText seq s = .ok s') : StOk s' := by
  simp only [showText] at h
  split at h
  · cases h
  · cases h
  · rename_i font blk hfont hblk
    split at h
    · cases h
    · rename_i b line hshow
      cases h
      refine ⟨?_, hs.done⟩
      rintro t ⟨⟩
      simp only [showSeq, bind, Except.bind] at hshow
      split at hshow
      · cases hshow
      · split at hshow
        · cases hshow
        · rename_i r hr
          split at hshow
          · cases hshow
          · rename_i b' hb
            cases hshow
            have hbo := charBlock_ok (renderSeq_ordered (by simp [Render.Ordered]) hr) hb
            obtain ⟨k1, k2, k3⟩ := hs.block blk hblk
            refine ⟨?_, by simp, ?_⟩
            · intro c hc
              rcases List.mem_append.1 hc with hc | hc
              · exact k1 c hc
              · obtain rfl := List.mem_singleton.1 hc; exact hbo
            · rintro x ⟨⟩
              rw [List.flatMap_append, List.flatMap_singleton]
              cases hbb : blk.bbox with
              | none =>
                have : blk.blocks = [] := k2.1 hbb
                simp only [growBbox, this, List.flatMap_nil, List.nil_append]
                exact ⟨hbo.ordered.1, smallest_singleton hbo.ordered.1⟩
              | some q =>
                obtain ⟨m1, m2⟩ := k3 q hbb
                exact ⟨join_ok m1, smallest_join m2 hbo.ordered.1⟩

theorem stOk_of {s s' : St} (hs : StOk s) (h1 : s'.block = s.block) (h2 : s'.done = s.done) : StOk s' := ⟨by rw [h1]; exact hs.block, by rw [h2]; exact hs.done⟩

theorem fromPoints_ok (ps : List (ℚ × ℚ)) : (fromPoints ps).Ok := mkBbox_ok ..

theorem makeCurve_ok {m : Mat} {g : GState} {eo : Bool} {ps : List CurvePath} {i : Item} (h : makeCurve m g eo ps = .ok i) : ItemOk i := by
  unfold makeCurve at h
  split at h
  · split at h
    · cases h; exact .curve _ (mkBbox_ok ..)
    · cases h
    · cases h
  · split at h
    · split at h
      · cases h; exact .curve _ (mkBbox_ok ..)
      · cases h; exact .none
    · cases h
    · cases h
  · split at h
    · cases h
    · cases h; exact .curve _ (fromPoints_ok _)

theorem formItem_ok {R : Resolver} {d : List (Key × Obj)} {raw : Bytes} {res : Obj} {m : Mat} {i : Item} (h : formItem R d raw res m = .ok i) :
    ItemOk i := by
  simp only [formItem, bind, Except.bind] at h
  split at h
  · cases h
  · split at h
    · cases h
    · split at h
      · cases h
      · split at h
        · cases h
        · rename_i b hb
          cases h
          refine .xobj _ _ _ _ _ ?_ (by simp)
          unfold formBbox at hb
          split at hb
          · simp only [bind, Except.bind] at hb
            repeat (split at hb; · cases hb)
            cases hb
            exact fromPoints_ok _
          · cases hb

theorem snoc_ok {l : List Item} {i : Item} (h : ∀ j ∈ l, ItemOk j) (hi : ItemOk i) : ∀ j ∈ l ++ [i], ItemOk j := by
  intro j hj
  rcases List.mem_append.1 hj with hj | hj
  · exact h j hj
  · obtain rfl := List.mem_singleton.1 hj; exact hi

theorem commands_ok (R : Resolver) : ∀ e ∈ commands R, ∀ as s s', e.2.2 as s = .ok s' → StOk s → StOk s' := by
  have l : ∀ {P : (Bytes × Nat × Op) → Prop}, (∀ e ∈ commands R, P e) ↔ List.Forall P (commands R) := fun {P} => (List.forall_iff_forall_mem).symm
  rw [l]
  have key : ∀ f : Op, OpKeeps f (fun s => (s.block, s.done)) → ∀ as s s', f as s = .ok s' → StOk s → StOk s' := by
    intro f hf as s s' h hs
    have := hf as s s' h
    simp only [Prod.mk.injEq] at this
    exact stOk_of hs this.1 this.2
  have hpaint : ∀ eo as s s', opPaint eo as s = .ok s' → StOk s → StOk s' := by
    intro eo as s s' h hs
    simp only [opPaint] at h
    split at h
    · cases h
    · cases h
      exact ⟨hs.block, snoc_ok hs.done (makeCurve_ok (by assumption))⟩
  have hclose : ∀ eo as s s', opClosePaint eo as s = .ok s' → StOk s → StOk s' := by
    intro eo as s s' h hs
    exact hpaint eo as _ s' h (stOk_of (s' := { s with curves := s.curves ++ [⟨.closePath, []⟩] }) hs rfl rfl)
  simp only [commands, List.Forall]
  refine ⟨?_, ?_, ?_, ?_, ?_, ?_, ?_, ?_, ?_, ?_, ?_, ?_, ?_, ?_, ?_, ?_, ?_, ?_, ?_, ?_, ?_, ?_, ?_, ?_, ?_, ?_, ?_, ?_, ?_, ?_, ?_, ?_, ?_, ?_, ?_, ?_,
    ?_, ?_, ?_, ?_, ?_, ?_, ?_, ?_, ?_, ?_, ?_, ?_, ?_, ?_, ?_, ?_, ?_, ?_, ?_, ?_, ?_, ?_⟩
  all_goals first
    | exact hpaint _ | exact hclose _
    | exact key _ (keeps_concat (fun _ _ => rfl)) | exact key _ (keeps_setG (fun _ _ => rfl) _) | exact key _ (keeps_dash (fun _ _ => rfl))
    | exact key _ (keeps_space (fun _ _ => rfl) _) | exact key _ (keeps_color (fun _ _ => rfl) _ _) | exact key _ (keeps_rgb (fun _ _ => rfl) _)
    | exact key _ (keeps_custom (fun _ _ _ => rfl) _ _) | exact key _ (keeps_curve (fun _ _ => rfl) _) | exact key _ (keeps_rect (fun _ _ => rfl))
    | exact key _ (keeps_endPath (fun _ _ => rfl)) | exact key _ (keeps_setT (fun _ _ => rfl) _) | exact key _ (keeps_leading (fun _ _ => rfl))
    | exact key _ (keeps_font (fun _ _ => rfl)) | exact key _ (keeps_move (fun _ _ _ => rfl)) | exact key _ (keeps_moveLead (fun _ _ _ => rfl))
    | exact key _ (keeps_matrix (fun _ _ _ => rfl)) | exact key _ (keeps_nextLine (fun _ _ _ => rfl))
    | skip
  · refine key _ ?_
    intro as s s' h; cases h; rfl
  · refine key _ ?_
    intro as s s' h; simp only [opRestore] at h; split at h <;> cases h <;> rfl
  · intro as s s' h hs
    simp only [opBegin] at h
    split at h
    · cases h
    · cases h
      refine ⟨?_, hs.done⟩
      rintro t ⟨⟩
      exact ⟨by simp, by simp, by simp⟩
  · intro as s s' h hs
    simp only [opEnd] at h
    cases h
    refine ⟨by simp, snoc_ok hs.done ?_⟩
    cases hb : s.block with
    | none => exact .none
    | some t => exact .text t (hs.block t hb)
  · intro as s s' h hs
    simp only [opShowArray] at h
    split at h
    · split at h
      · cases h
      · exact showText_ok hs h
      · cases h
    · cases h
  · intro as s s' h hs; exact showText_ok hs h
  · intro as s s' h hs; exact showText_ok (s := nextLine s) (stOk_of hs rfl rfl) h
  · intro as s s' h hs
    simp only [opDoubleQuote] at h
    split at h
    · refine showText_ok ?_ h
      exact stOk_of hs rfl rfl
    · cases h
  · intro as s s' h hs
    simp only [opImage] at h
    split at h
    · split at h <;> cases h
      · exact ⟨hs.block, snoc_ok hs.done (.image _ _ _ (fromPoints_ok _))⟩
      · exact hs
    · cases h; exact hs
    · cases h
  · intro as s s' h hs
    simp only [opXObject] at h
    split at h
    · split at h
      · cases h
      · split at h
        · cases h
        · split at h
          · cases h
          · split at h
            · split at h
              · cases h
              · cases h
                exact ⟨hs.block, snoc_ok hs.done (formItem_ok (by assumption))⟩
            · split at h <;> cases h
              · exact ⟨hs.block, snoc_ok hs.done (.image _ _ _ (fromPoints_ok _))⟩
              · exact hs
    · cases h

theorem exec_ok (R : Resolver) {s s' : St} {o : Obj} (hs : StOk s) (h : exec R s o = .ok s') : StOk s' := by
  cases o with
  | kw n =>
    simp only [exec] at h
    split at h
    · cases h; exact hs
    · rename_i k f hf
      have hk := commands_ok R _ (dictGet_mem_list hf)
      split at h
      · exact hk _ _ _ h hs
      · split at h
        · exact hk _ { s with args := (popArgs k s.args).2 } _ h (stOk_of hs rfl rfl)
        · cases h
  | _ => cases h; exact stOk_of hs rfl rfl

theorem initFonts_ok (E : Env1) (d : List (Key × Obj)) {s s' : St} (hs : StOk s) (h : initFonts E d s = .ok s') : StOk s' := by
  induction d generalizing s with
  | nil => cases h; exact hs
  | cons e d ih =>
    obtain ⟨k, v⟩ := e
    simp only [initFonts] at h
    split at h
    · cases h
    · split at h
      · cases h
      · refine ih ?_ h
        exact stOk_of hs rfl rfl

theorem initSpaces_ok (R : Resolver) (d : List (Key × Obj)) {s s' : St} (hs : StOk s) (h : initSpaces R d s = .ok s') : StOk s' := by
  induction d generalizing s with
  | nil => cases h; exact hs
  | cons e d ih =>
    obtain ⟨k, v⟩ := e
    simp only [initSpaces] at h
    split at h
    · cases h
    · split at h
      · cases h
      · refine ih ?_ h
        exact stOk_of hs rfl rfl

theorem initEntry_ok (E : Env1) (k : Key) (v : Obj) {s s' : St} (hs : StOk s) (h : initEntry E k v s = .ok s') : StOk s' := by
  simp only [initEntry] at h
  split at h
  · split at h
    · cases h
    · exact initFonts_ok E _ hs h
  · split at h
    · split at h
      · cases h
      · exact initSpaces_ok _ _ hs h
    · split at h
      · split at h <;> cases h
        exact hs
      · split at h
        · split at h <;> cases h
          exact stOk_of hs rfl rfl
        · cases h; exact hs

theorem initEntries_ok (E : Env1) (d : List (Key × Obj)) {s s' : St} (hs : StOk s) (h : initEntries E d s = .ok s') : StOk s' := by
  induction d generalizing s with
  | nil => cases h; exact hs
  | cons e d ih =>
    obtain ⟨k, v⟩ := e
    simp only [initEntries] at h
    split at h
    · cases h
    · exact ih (initEntry_ok E k v hs (by assumption)) h

theorem prepState_ok (E : Env1) (m : Mat) (res : Obj) (ig : Bool) {s : St} (h : prepState E m res ig = .ok s) : StOk s := by
  simp only [prepState, initResources] at h
  split at h
  · cases h
  · exact initEntries_ok E _ ⟨by simp, by simp⟩ h

theorem finish_ok (E : Env1) (nested : List Obj → St → Gen Item) (hn : ∀ st s, StOk s → ∀ i ∈ (nested st s).1, ItemOk i) (g : GState) (is : List Item)
    (h : ∀ i ∈ is, ItemOk i) : ∀ i ∈ (finish E nested g is).1, ItemOk i := by
  induction is with
  | nil => simp [finish]
  | cons i is ih =>
    have ih := ih fun j hj => h j (List.mem_cons_of_mem _ hj)
    have hi := h i (List.mem_cons_self ..)
    cases hi with
    | xobj st b res m cs hb hc =>
      simp only [finish]
      split
      · simp
      · rename_i s hs
        split
        · simp
        · rename_i items hit
          intro j hj
          rcases List.mem_cons.1 hj with rfl | hj
          · refine .xobj _ _ _ _ _ hb fun c hc' => ?_
            rcases List.mem_append.1 hc' with hc' | hc'
            · exact hc c hc'
            · have := hn [st] { s with graphics := g } (stOk_of (prepState_ok E m res false hs) rfl rfl)
              rw [hit] at this
              exact this c hc'
          · exact ih j hj
    | curve c hc => exact fun j hj => (List.mem_cons.1 hj).elim (fun e => e ▸ .curve c hc) (ih j)
    | text t ht => exact fun j hj => (List.mem_cons.1 hj).elim (fun e => e ▸ .text t ht) (ih j)
    | image d data b hb => exact fun j hj => (List.mem_cons.1 hj).elim (fun e => e ▸ .image d data b hb) (ih j)
    | none => exact fun j hj => (List.mem_cons.1 hj).elim (fun e => e ▸ .none) (ih j)

theorem runWith_ok (E : Env1) (nested : List Obj → St → Gen Item) (hn : ∀ st s, StOk s → ∀ i ∈ (nested st s).1, ItemOk i) (os : List Obj)
    (e : Option PyErr) (s : St) (hs : StOk s) : ∀ i ∈ (runWith E nested os e s).1.1, ItemOk i := by
  induction os generalizing s with
  | nil => simp [runWith]
  | cons o os ih =>
    simp only [runWith]
    split
    · simp
    · rename_i s1 h1
      have h2 := exec_ok E.R hs h1
      have h3 := finish_ok E nested hn s1.graphics s1.done h2.done
      split
      · rename_i items x hx
        rw [hx] at h3
        exact h3
      · rename_i items hx
        rw [hx] at h3
        intro i hi
        rcases List.mem_append.1 hi with hi | hi
        · exact h3 i hi
        · exact ih { s1 with done := [] } ⟨h2.block, by simp⟩ i hi

/-- C40: whatever the content, every character block that the interpreter yields (on the page or in forms) has the smallest box that contains
the boxes of its characters, and every text block the smallest box that contains the boxes of its character blocks. -/
theorem text_boxes (E : Env1) (fuel : Nat) (streams : List Obj) (m : Mat) (res : Obj) (ig : Bool) (s : St) (h : prepState E m res ig = .ok s) :
    ∀ i ∈ (run E fuel streams s).1.1, ItemOk i := by
  have key : ∀ fuel streams s, StOk s → ∀ i ∈ (run E fuel streams s).1.1, ItemOk i := by
    intro fuel
    induction fuel with
    | zero => simp [run]
    | succ fuel ih =>
      intro streams s hs
      exact runWith_ok E _ (fun st s hs => ih st s hs) _ _ s hs
  exact key fuel streams s (prepState_ok E m res ig h)

/-! ### C41: paths -/

/-- The path is one straight segment. -/
def Segment (paths : List CurvePath) (p q : ℚ × ℚ) : Prop := paths = [⟨.moveTo, [(some p.1, some p.2)]⟩, ⟨.lineTo, [(some q.1, some q.2)]⟩]

/-- The path is a closed quadrilateral. -/
def Quad (paths : List CurvePath) (a b c d : ℚ × ℚ) : Prop :=
  paths = [⟨.moveTo, [(some a.1, some a.2)]⟩, ⟨.lineTo, [(some b.1, some b.2)]⟩, ⟨.lineTo, [(some c.1, some c.2)]⟩, ⟨.lineTo, [(some d.1, some d.2)]⟩, ⟨.closePath, []⟩]

/-- The sides are parallel to the axes, alternately. -/
def AxisAligned (a b c d : ℚ × ℚ) : Prop :=
  (a.1 = b.1 ∧ b.2 = c.2 ∧ c.1 = d.1 ∧ d.2 = a.2) ∨ (a.2 = b.2 ∧ b.1 = c.1 ∧ c.2 = d.2 ∧ d.1 = a.1)

instance (a b c d : ℚ × ℚ) : Decidable (AxisAligned a b c d) := by unfold AxisAligned; infer_instance

theorem smallest_two (p q : ℚ × ℚ) : SmallestBox (mkBbox p.1 p.2 q.1 q.2) [p, q] := by
  constructor
  · intro r hr
    simp only [List.mem_cons, List.not_mem_nil, or_false] at hr
    rcases hr with rfl | rfl <;> simp [Box, mkBbox]
  · intro x0 y0 x1 y1 h
    obtain ⟨h1, h2, h3, h4⟩ := h p (by simp)
    obtain ⟨k1, k2, k3, k4⟩ := h q (by simp)
    exact ⟨le_min h1 k1, le_min h3 k3, max_le h2 k2, max_le h4 k4⟩

theorem smallest_four (a b c d : ℚ × ℚ) :
    SmallestBox (mkBbox (min (min a.1 b.1) (min c.1 d.1)) (min (min a.2 b.2) (min c.2 d.2)) (max (max a.1 b.1) (max c.1 d.1))
          (max (max a.2 b.2) (max c.2 d.2))) [a, b, c, d] := by
  have hx : min (min a.1 b.1) (min c.1 d.1) ≤ max (max a.1 b.1) (max c.1 d.1) := (min_le_left _ _).trans ((min_le_left _ _).trans ((le_max_left _ _).trans (le_max_left _ _)))
  have hy : min (min a.2 b.2) (min c.2 d.2) ≤ max (max a.2 b.2) (max c.2 d.2) := (min_le_left _ _).trans ((min_le_left _ _).trans ((le_max_left _ _).trans (le_max_left _ _)))
  simp only [mkBbox, min_eq_left hx, min_eq_left hy, max_eq_right hx, max_eq_right hy]
  constructor
  · intro r hr
    simp only [List.mem_cons, List.not_mem_nil, or_false] at hr
    rcases hr with rfl | rfl | rfl | rfl <;> simp [Box]
  · intro x0 y0 x1 y1 h
    obtain ⟨h1, h2, h3, h4⟩ := h a (by simp)
    obtain ⟨k1, k2, k3, k4⟩ := h b (by simp)
    obtain ⟨l1, l2, l3, l4⟩ := h c (by simp)
    obtain ⟨m1, m2, m3, m4⟩ := h d (by simp)
    exact ⟨le_min (le_min h1 k1) (le_min l1 m1), le_min (le_min h3 k3) (le_min l3 m3), max_le (max_le h2 k2) (max_le l2 m2), max_le (max_le h4 k4) (max_le l4 m4)⟩

/-- The operators that paint the path: names, whether the even-odd rule is used and whether the path is closed first. -/
def painters : List (String × Bool × Bool) :=
  [("S", false, false), ("f", false, false), ("F", false, false), ("B", false, false), ("f*", true, false), ("B*", true, false),
   ("s", false, true), ("b", false, true), ("b*", true, true)]

/-- The path that such an operator paints. -/
def drawn (s : St) (closes : Bool) : List CurvePath := s.curves ++ if closes then [⟨.closePath, []⟩] else []

theorem exec_paint (R : Resolver) (s : St) (n : String) (eo cl : Bool) (hop : (n, eo, cl) ∈ painters) :
    execs R [operator n] s = match makeCurve s.tmatrix s.graphics eo (drawn s cl) with
      | .error e => .error e
      | .ok i => .ok { s with done := s.done ++ [i], curves := [] } := by
  have hf : dictGet (commands R) (methodName (asc n)) = some (0, if cl then opClosePaint eo else opPaint eo) := by
    simp only [painters, List.mem_cons, List.not_mem_nil, or_false, Prod.mk.injEq] at hop
    rcases hop with ⟨rfl, rfl, rfl⟩ | ⟨rfl, rfl, rfl⟩ | ⟨rfl, rfl, rfl⟩ | ⟨rfl, rfl, rfl⟩ | ⟨rfl, rfl, rfl⟩ | ⟨rfl, rfl, rfl⟩ | ⟨rfl, rfl, rfl⟩ |
      ⟨rfl, rfl, rfl⟩ | ⟨rfl, rfl, rfl⟩ <;> rfl
  have e := exec_op R s [] n _ (by simp) hf
  rw [List.nil_append] at e
  rw [e]
  cases cl
  · simp only [opPaint, drawn, Bool.false_eq_true, if_false, List.append_nil]
    cases makeCurve s.tmatrix s.graphics eo s.curves <;> rfl
  · simp only [opClosePaint, opPaint, drawn, if_true]
    cases makeCurve s.tmatrix s.graphics eo (s.curves ++ [⟨.closePath, []⟩]) <;> rfl

/-- The curve that is made of the path `ps`. -/
def curveOf (s : St) (k : CurveKind) (ps : List CurvePath) (b : Bbox) (eo : Bool) : Item :=
  .curve ⟨k, s.graphics.linewidth, ps, b, s.graphics.scolor, s.graphics.ncolor, eo⟩

/-- A painted straight segment becomes one line, of the right class, with the smallest box around the transformed end points. -/
theorem paint_segment (R : Resolver) (s : St) (p q : ℚ × ℚ) (n : String) (eo cl : Bool) (hop : (n, eo, cl) ∈ painters) (hs : Segment (drawn s cl) p q) :
    ∃ k b, execs R [operator n] s = .ok { s with curves := [], done := s.done ++ [curveOf s k (drawn s cl) b eo] } ∧
      SmallestBox b [applyPt s.tmatrix p, applyPt s.tmatrix q] ∧
      k = (if (applyPt s.tmatrix p).1 = (applyPt s.tmatrix q).1 then .vertical else if (applyPt s.tmatrix p).2 = (applyPt s.tmatrix q).2 then .horizontal else .line) := by
  refine ⟨_, _, ?_, smallest_two _ _, rfl⟩
  rw [exec_paint R s n eo cl hop, hs]
  rfl

theorem makeCurve_quad {m : Mat} {g : GState} {eo : Bool} {ps : List CurvePath} {a b c d : ℚ × ℚ} (h : Quad ps a b c d) :
    makeCurve m g eo ps = if AxisAligned (applyPt m a) (applyPt m b) (applyPt m c) (applyPt m d) then
        .ok (.curve ⟨.rect, g.linewidth, ps, mkBbox (min (min (applyPt m a).1 (applyPt m b).1) (min (applyPt m c).1 (applyPt m d).1))
          (min (min (applyPt m a).2 (applyPt m b).2) (min (applyPt m c).2 (applyPt m d).2)) (max (max (applyPt m a).1 (applyPt m b).1) (max (applyPt m c).1 (applyPt m d).1))
          (max (max (applyPt m a).2 (applyPt m b).2) (max (applyPt m c).2 (applyPt m d).2)), g.scolor, g.ncolor, eo⟩)
      else .ok .none := by
  rw [h]
  rfl

/-- A painted closed quadrilateral whose sides are parallel to the axes of the page becomes one rectangle with exactly those corners. -/
theorem paint_rectangle (R : Resolver) (s : St) (a b c d : ℚ × ℚ) (n : String) (eo cl : Bool) (hop : (n, eo, cl) ∈ painters) (hs : Quad (drawn s cl) a b c d)
    (ha : AxisAligned (applyPt s.tmatrix a) (applyPt s.tmatrix b) (applyPt s.tmatrix c) (applyPt s.tmatrix d)) :
    ∃ box, execs R [operator n] s = .ok { s with curves := [], done := s.done ++ [curveOf s .rect (drawn s cl) box eo] } ∧
      SmallestBox box [applyPt s.tmatrix a, applyPt s.tmatrix b, applyPt s.tmatrix c, applyPt s.tmatrix d] := by
  refine ⟨_, ?_, smallest_four _ _ _ _⟩
  rw [exec_paint R s n eo cl hop, makeCurve_quad hs, if_pos ha]
  rfl

/-- The path that `re` adds. -/
theorem rectangle_path (R : Resolver) (s : St) (x y w h : Obj) (px py pw ph : ℚ) (hx : x.num? = some px) (hy : y.num? = some py) (hw : w.num? = some pw)
    (hh : h.num? = some ph) : ∃ ps, execs R [x, y, w, h, operator "re"] s = .ok { s with curves := s.curves ++ ps } ∧
      Quad ps (px, py) (px + pw, py) (px + pw, py + ph) (px, py + ph) := by
  refine ⟨_, (exec_op R s [x, y, w, h] "re" opRect ?_ rfl).trans ?_, rfl⟩
  · simp [num?_operand hx, num?_operand hy, num?_operand hw, num?_operand hh]
  · simp only [opRect, num_of hx, num_of hy, num_of hw, num_of hh, bind, Except.bind]

/-- `x y w h re f`: under a matrix that maps the axes to axes, one rectangle. -/
theorem paint_re (R : Resolver) (s : St) (x y w h : Obj) (px py pw ph : ℚ) (hx : x.num? = some px) (hy : y.num? = some py) (hw : w.num? = some pw)
    (hh : h.num? = some ph) (hs : s.curves = []) (hm : (s.tmatrix.b = 0 ∧ s.tmatrix.c = 0) ∨ (s.tmatrix.a = 0 ∧ s.tmatrix.d = 0)) :
    ∃ box ps, execs R [x, y, w, h, operator "re", operator "f"] s = .ok { s with done := s.done ++ [curveOf s .rect ps box false] } ∧
      SmallestBox box [applyPt s.tmatrix (px, py), applyPt s.tmatrix (px + pw, py), applyPt s.tmatrix (px + pw, py + ph), applyPt s.tmatrix (px, py + ph)] := by
  obtain ⟨ps, h1, h2⟩ := rectangle_path R s x y w h px py pw ph hx hy hw hh
  have hq : Quad (drawn { s with curves := s.curves ++ ps } false) (px, py) (px + pw, py) (px + pw, py + ph) (px, py + ph) := by
    simpa [drawn, hs] using h2
  obtain ⟨box, h3, h4⟩ := paint_rectangle R { s with curves := s.curves ++ ps } _ _ _ _ "f" false false (by decide) hq (by
    rcases hm with ⟨e1, e2⟩ | ⟨e1, e2⟩ <;> simp [AxisAligned, applyPt, e1, e2])
  refine ⟨box, drawn { s with curves := s.curves ++ ps } false, ?_, h4⟩
  rw [show [x, y, w, h, operator "re", operator "f"] = [x, y, w, h, operator "re"] ++ [operator "f"] from rfl, execs_append, h1]
  simp only
  rw [h3]
  cases s
  cases hs
  rfl

/-- A painted closed quadrilateral that is not parallel to the axes is dropped: `None` is yielded. -/
theorem paint_rotated (R : Resolver) (s : St) (a b c d : ℚ × ℚ) (n : String) (eo cl : Bool) (hop : (n, eo, cl) ∈ painters) (hs : Quad (drawn s cl) a b c d)
    (ha : ¬ AxisAligned (applyPt s.tmatrix a) (applyPt s.tmatrix b) (applyPt s.tmatrix c) (applyPt s.tmatrix d)) :
    execs R [operator n] s = .ok { s with curves := [], done := s.done ++ [.none] } := by
  rw [exec_paint R s n eo cl hop, makeCurve_quad hs, if_neg ha]

theorem makeCurve_other {m : Mat} {g : GState} {eo : Bool} {ps : List CurvePath} {pts : List (ℚ × ℚ)} (h1 : ∀ p q, ¬ Segment ps p q)
    (h2 : ∀ a b c d, ¬ Quad ps a b c d) (h : endPoints ps = .ok pts) :
    makeCurve m g eo ps = .ok (.curve ⟨.curve, g.linewidth, ps, fromPoints pts, g.scolor, g.ncolor, eo⟩) := by
  have hp : ∀ p : Option ℚ × Option ℚ, (∃ q : ℚ × ℚ, p = (some q.1, some q.2)) ∨ point p = .error .typeError := by
    rintro ⟨_ | x, _ | y⟩
    · exact .inr rfl
    · exact .inr rfl
    · exact .inr rfl
    · exact .inl ⟨(x, y), rfl⟩
  have hq : ∀ q : ℚ × ℚ, point (some q.1, some q.2) = .ok q := fun _ => rfl
  unfold makeCurve
  split
  · rename_i p0 p1
    simp only [endPoints, endPoint, List.getElem?_cons_zero] at h
    rcases hp p0 with ⟨q0, rfl⟩ | e
    · rcases hp p1 with ⟨q1, rfl⟩ | e
      · exact absurd rfl (h1 q0 q1)
      · simp only [e, hq] at h
        cases h
    · simp only [e] at h
      cases h
  · rename_i p0 p1 p2 p3
    simp only [endPoints, endPoint, List.getElem?_cons_zero] at h
    rcases hp p0 with ⟨q0, rfl⟩ | e
    · rcases hp p1 with ⟨q1, rfl⟩ | e
      · rcases hp p2 with ⟨q2, rfl⟩ | e
        · rcases hp p3 with ⟨q3, rfl⟩ | e
          · exact absurd rfl (h2 q0 q1 q2 q3)
          · simp only [e, hq] at h
            cases h
        · simp only [e, hq] at h
          cases h
      · simp only [e, hq] at h
        cases h
    · simp only [e] at h
      cases h
  · simp only [h]

/-- Any other painted path becomes one curve, with the smallest box around its end points *before* the transformation. -/
theorem paint_curve_partial (R : Resolver) (s : St) (n : String) (eo cl : Bool) (hop : (n, eo, cl) ∈ painters) (pts : List (ℚ × ℚ))
    (h1 : ∀ p q, ¬ Segment (drawn s cl) p q) (h2 : ∀ a b c d, ¬ Quad (drawn s cl) a b c d) (h : endPoints (drawn s cl) = .ok pts) :
    ∃ box, execs R [operator n] s = .ok { s with curves := [], done := s.done ++ [curveOf s .curve (drawn s cl) box eo] } ∧
      (pts ≠ [] → (∀ p ∈ pts, p ∈ Box (-INF) (-INF) INF INF) → SmallestBox box pts) := by
  refine ⟨fromPoints pts, ?_, fun hne hinf => from_points pts hne hinf⟩
  rw [exec_paint R s n eo cl hop, makeCurve_other h1 h2 h]
  rfl

/-- Every painting operator that succeeds yields one item and begins a new path. -/
theorem paint_once (R : Resolver) (s s' : St) (n : String) (eo cl : Bool) (hop : (n, eo, cl) ∈ painters) (h : execs R [operator n] s = .ok s') :
    ∃ i, s' = { s with curves := [], done := s.done ++ [i] } := by
  rw [exec_paint R s n eo cl hop] at h
  split at h <;> cases h
  exact ⟨_, rfl⟩

/-- The boxes of the curves that are complete. -/
def curveBoxes (r : Except PyErr St) : List (Option (CurveKind × Bbox)) :=
  match r with
  | .ok s => s.done.map fun i => match i with | .curve c => some (c.kind, c.bbox) | _ => none
  | .error _ => []

/-- A square turned by 45 degrees is dropped. -/
theorem rotated_counterexample : curveBoxes (execs noRefs [.int 0, .int 0, operator "m", .int 1, .int 1, operator "l", .int 0, .int 2, operator "l",
    .int (-1), .int 1, operator "l", operator "h", operator "f"] { csmap := [] }) = [none] := by decide +kernel

/-- The box of a triangle under `2 0 0 2 0 0 cm` is that of the triangle before the transformation; control points of Bézier curves are ignored. -/
theorem curve_counterexample : curveBoxes (execs noRefs [.int 2, .int 0, .int 0, .int 2, .int 0, .int 0, operator "cm", .int 0, .int 0, operator "m",
      .int 1, .int 0, operator "l", .int 1, .int 1, operator "l", operator "f"] { csmap := [] }) = [some (.curve, ⟨0, 0, 1, 1⟩)] ∧
    curveBoxes (execs noRefs [.int 0, .int 0, operator "m", .int 0, .int 9, .int 1, .int 9, .int 1, .int 0, operator "c", operator "S"] { csmap := [] }) =
      [some (.curve, ⟨0, 0, 1, 0⟩)] := by
  constructor <;> decide +kernel

example : Segment (drawn { csmap := [], curves := [⟨.moveTo, [(some 1, some 2)]⟩, ⟨.lineTo, [(some 3, some 4)]⟩] } false) (1, 2) (3, 4) := rfl

example : Quad (drawn { csmap := [], curves := [⟨.moveTo, [(some 1, some 2)]⟩, ⟨.lineTo, [(some 3, some 2)]⟩, ⟨.lineTo, [(some 3, some 4)]⟩,
    ⟨.lineTo, [(some 1, some 4)]⟩] } true) (1, 2) (3, 2) (3, 4) (1, 4) := rfl

end Pdf

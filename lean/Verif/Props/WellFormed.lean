import Verif.Spec.WellFormed
import Verif.Props.Extract
/-! Property C89: well-formed content is interpreted in full. -/

namespace Pdf

open Spec (Operand operator ProgramShows FontNamed XObjectNamed ResourceNamed StringText ArrayText CodeShows Pen IsForm ResourcesOfForm WellFormed
  UsableResources IsSpace IsNumber Measured PlacedText PlacedArray HasCharacter FormBoxes)

/-! ### Names of operators -/

theorem methodName_inj : ∀ (n m : Bytes), (∀ c ∈ n, c ≠ 95) → (∀ c ∈ m, c ≠ 95) → methodName n = methodName m → n = m
  | [], [], _, _, _ => rfl
  | [], b :: m, _, _, h => by
    rw [methodName, methodName, List.flatMap_cons] at h
    have := (List.append_eq_nil_iff.1 h.symm).1
    split at this
    · cases this
    · split at this
      · cases this
      · split at this <;> cases this
  | a :: n, [], _, _, h => by
    rw [methodName, methodName, List.flatMap_cons] at h
    have := (List.append_eq_nil_iff.1 h).1
    split at this
    · cases this
    · split at this
      · cases this
      · split at this <;> cases this
  | a :: n, b :: m, hn, hm, h => by
    have ha := hn a (List.mem_cons_self ..)
    have hb := hm b (List.mem_cons_self ..)
    have ih := methodName_inj n m (fun c hc => hn c (List.mem_cons_of_mem _ hc)) (fun c hc => hm c (List.mem_cons_of_mem _ hc))
    rw [methodName, methodName, List.flatMap_cons, List.flatMap_cons] at h
    change _ ++ methodName n = _ ++ methodName m at h
    split at h
    · subst_vars
      split at h
      · subst_vars
        simp only [List.cons_append, List.nil_append, List.cons.injEq, true_and] at h
        rw [ih h]
      · split at h
        · simp at h
        · split at h
          · simp at h
          · simp only [List.cons_append, List.nil_append, List.cons.injEq] at h
            exact absurd h.1.symm hb
    · split at h
      · subst_vars
        split at h
        · simp at h
        · split at h
          · subst_vars
            simp only [List.cons_append, List.nil_append, List.cons.injEq, true_and] at h
            rw [ih h]
          · split at h
            · simp at h
            · simp only [List.cons_append, List.nil_append, List.cons.injEq] at h
              exact absurd h.1.symm hb
      · split at h
        · subst_vars
          split at h
          · simp at h
          · split at h
            · simp at h
            · split at h
              · subst_vars
                simp only [List.cons_append, List.nil_append, List.cons.injEq, true_and] at h
                rw [ih h]
              · simp only [List.cons_append, List.nil_append, List.cons.injEq] at h
                exact absurd h.1.symm hb
        · have : ∀ x y : UInt8, ∀ l l' : Bytes, [x] ++ l = y :: l' → x = y ∧ l = l' := by
            intro x y l l' h
            simpa using h
          split at h
          · exact absurd (this _ _ _ _ h).1 ha
          · split at h
            · exact absurd (this _ _ _ _ h).1 ha
            · split at h
              · exact absurd (this _ _ _ _ h).1 ha
              · obtain ⟨h1, h2⟩ := this _ _ _ _ h
                rw [h1, ih h2]

/-- The names in the table of operators. -/
def commandNames : List Bytes := (Spec.numberOperators.map Prod.fst ++ Spec.bareOperators ++ Spec.otherOperators).map asc

theorem command_known (R : Resolver) : ∀ e ∈ commands R, ∃ n ∈ commandNames, e.1 = methodName n := by
  have hk : (commands R).map Prod.fst = (commands ⟨.ok, fun _ => .error .keyError⟩).map Prod.fst := rfl
  have hd : ∀ k ∈ (commands ⟨.ok, fun _ => .error .keyError⟩).map Prod.fst, k ∈ commandNames.map methodName := by decide +kernel
  intro e he
  have h1 : e.1 ∈ (commands R).map Prod.fst := List.mem_map.2 ⟨e, he, rfl⟩
  rw [hk] at h1
  obtain ⟨n, hn, e'⟩ := List.mem_map.1 (hd _ h1)
  exact ⟨n, hn, e'.symm⟩

theorem unknown_command (R : Resolver) {n : Bytes} (h : .kw n ∉ Spec.knownOperators) (hc : ∀ c ∈ n, c ≠ 95) : dictGet (commands R) (methodName n) = none := by
  cases hg : dictGet (commands R) (methodName n) with
  | none => rfl
  | some v =>
    obtain ⟨m, hm, e⟩ := command_known R _ (dictGet_mem_list hg)
    have hm95 : ∀ m ∈ commandNames, ∀ c ∈ m, c ≠ 95 := by decide +kernel
    have := methodName_inj n m hc (hm95 m hm) e
    subst this
    have hk : ∀ m ∈ commandNames, Obj.kw m ∈ Spec.knownOperators := by
      intro m hm
      obtain ⟨s, hs, rfl⟩ := List.mem_map.1 hm
      exact List.mem_map.2 ⟨s, hs, rfl⟩
    exact absurd (hk n hm) h

/-! ### Resources -/

/-- The colour space has components. -/
def SpaceReady (v : Option ColorSpace) : Prop := ∃ c n, v = some c ∧ c.ncomponents = .int n

theorem predefined_ready {n : Bytes} (h : n ∈ Spec.spaceNames) : ∃ v, dictGet predefinedSpaces (.name n) = some v ∧ SpaceReady v := by
  have : ∀ n ∈ Spec.spaceNames, ∃ c k, (c, k) ∈ ([(asc "DeviceGray", 1), (asc "CalRGB", 3), (asc "CalGray", 1), (asc "Lab", 3), (asc "DeviceRGB", 3), (asc "DeviceCMYK", 4),
      (asc "Separation", 1), (asc "Indexed", 1), (asc "Pattern", 1)] : List (Bytes × Int)) ∧ dictGet predefinedSpaces (.name n) = some (some ⟨c, .int k⟩) := by
    intro n h
    simp only [Spec.spaceNames, List.map_cons, List.map_nil, List.mem_cons, List.not_mem_nil, or_false] at h
    rcases h with rfl | rfl | rfl | rfl | rfl | rfl | rfl | rfl | rfl
    · exact ⟨asc "DeviceGray", 1, by decide, by decide +kernel⟩
    · exact ⟨asc "CalRGB", 3, by decide, by decide +kernel⟩
    · exact ⟨asc "CalGray", 1, by decide, by decide +kernel⟩
    · exact ⟨asc "Lab", 3, by decide, by decide +kernel⟩
    · exact ⟨asc "DeviceRGB", 3, by decide, by decide +kernel⟩
    · exact ⟨asc "DeviceCMYK", 4, by decide, by decide +kernel⟩
    · exact ⟨asc "Separation", 1, by decide, by decide +kernel⟩
    · exact ⟨asc "Indexed", 1, by decide, by decide +kernel⟩
    · exact ⟨asc "Pattern", 1, by decide, by decide +kernel⟩
  obtain ⟨c, k, _, h⟩ := this n h
  exact ⟨_, h, _, _, rfl, rfl⟩

theorem getColorspace_ready {R : Resolver} {o : Obj} (h : IsSpace R o) : ∃ v c, R.resolve1 o = .ok v ∧ getColorspace R v = .ok c ∧ SpaceReady c := by
  have hd : ∀ {n : Bytes}, n ∈ Spec.spaceNames → ∃ c, (dictGet predefinedSpaces (.name n)).join = c ∧ SpaceReady c := by
    intro n hn
    obtain ⟨v, h1, h2⟩ := predefined_ready hn
    exact ⟨v, by rw [h1]; rfl, h2⟩
  cases h with
  | named h hn =>
    obtain ⟨c, h1, h2⟩ := hd hn
    exact ⟨_, c, h, by simp only [getColorspace, Obj.key, h1], h2⟩
  | single h hn =>
    obtain ⟨c, h1, h2⟩ := hd hn
    exact ⟨_, c, h, by simp only [getColorspace, Obj.key, h1], h2⟩
  | @family n y l h hn =>
    obtain ⟨c, h1, h2⟩ := hd hn
    have e1 : Key.name n ≠ nm "ICCBased" := by
      intro e
      injection e with e
      subst e
      exact absurd hn (by decide)
    have e2 : Key.name n ≠ nm "DeviceN" := by
      intro e
      injection e with e
      subst e
      exact absurd hn (by decide)
    exact ⟨_, c, h, by simp only [getColorspace, Obj.key]; rw [if_neg e1, if_neg e2, h1], h2⟩
  | @icc _ _ _ _ k h hy hN =>
    refine ⟨_, some ⟨asc "ICCBased", .int k⟩, h, ?_, _, k, rfl, rfl⟩
    simp only [getColorspace, Obj.key]
    refine (if_pos rfl).trans ?_
    simp only [Resolver.streamValue, hy, hN]
  | @deviceN _ _ names h hy =>
    refine ⟨_, some ⟨asc "DeviceN", .int names.length⟩, h, ?_, _, names.length, rfl, rfl⟩
    simp only [getColorspace, Obj.key]
    refine (if_neg (by decide)).trans ((if_pos rfl).trans ?_)
    simp only [Resolver.listValue, hy]

theorem initFonts_run {E : Env1} {l : List (Key × Obj)} (h : ∀ e ∈ l, ∃ fd f, E.R.resolve1 e.2 = .ok (.dict fd) ∧ E.getFont (refId e.2) fd = .ok f) (s : St) :
    ∃ s', initFonts E l s = .ok s' := by
  induction l generalizing s with
  | nil => exact ⟨s, rfl⟩
  | cons e l ih =>
    obtain ⟨k, o⟩ := e
    obtain ⟨fd, f, h1, h2⟩ := h _ (List.mem_cons_self ..)
    obtain ⟨s', hs⟩ := ih (fun e he => h e (List.mem_cons_of_mem _ he)) { s with fontmap := dictSet s.fontmap k f }
    exact ⟨s', by simp only [initFonts, Resolver.dictValue, h1, h2, hs]⟩

/-- All the colour spaces known by name have components. -/
def SpacesReady (m : List (Key × Option ColorSpace)) : Prop := ∀ k v, dictGet m k = some v → SpaceReady v

theorem spacesReady_set {m : List (Key × Option ColorSpace)} (h : SpacesReady m) (k : Key) {v : Option ColorSpace} (hv : SpaceReady v) :
    SpacesReady (dictSet m k v) := by
  intro k' v' e
  rw [dictGet_dictSet] at e
  split at e
  · cases e; exact hv
  · exact h _ _ e

theorem initSpaces_run {R : Resolver} {l : List (Key × Obj)} (h : ∀ e ∈ l, IsSpace R e.2) (s : St) (hs : SpacesReady s.csmap) :
    ∃ s', initSpaces R l s = .ok s' ∧ SpacesReady s'.csmap ∧ (∀ k, (dictGet s.csmap k).isSome → (dictGet s'.csmap k).isSome) ∧
      ∀ e ∈ l, (dictGet s'.csmap e.1).isSome := by
  induction l generalizing s with
  | nil => exact ⟨s, rfl, hs, fun _ h => h, by simp⟩
  | cons e l ih =>
    obtain ⟨k, o⟩ := e
    obtain ⟨v, c, h1, h2, h3⟩ := getColorspace_ready (h _ (List.mem_cons_self ..))
    obtain ⟨s', h4, h5, h6, h7⟩ := ih (fun e he => h e (List.mem_cons_of_mem _ he)) { s with csmap := dictSet s.csmap k c } (spacesReady_set hs k h3)
    have hk : ∀ k', (dictGet s.csmap k').isSome ∨ k' = k → (dictGet s'.csmap k').isSome := by
      intro k' hk'
      refine h6 k' ?_
      simp only
      rw [dictGet_dictSet]
      split
      · rfl
      · rename_i hn
        rcases hk' with h | h
        · exact h
        · exact absurd (by first | exact h | exact h.symm) hn
    refine ⟨s', by simp only [initSpaces, h1, h2, h4], h5, fun k' hk' => hk k' (.inl hk'), ?_⟩
    intro e he
    rcases List.mem_cons.1 he with rfl | he
    · exact hk _ (.inr rfl)
    · exact h7 e he

/-- One entry of usable resources. -/
structure EntryUsable (E : Env1) (k : Key) (o : Obj) : Prop where
  fonts : k = nm "Font" → ∃ es, E.R.resolve1 o = .ok (.dict es) ∧ ∀ e ∈ es, ∃ fd f, E.R.resolve1 e.2 = .ok (.dict fd) ∧ E.getFont (refId e.2) fd = .ok f
  spaces : k = nm "ColorSpace" → ∃ es, E.R.resolve1 o = .ok (.dict es) ∧ ∀ e ∈ es, IsSpace E.R e.2
  procSet : k = nm "ProcSet" → ∃ v, E.R.resolve1 o = .ok v
  xobjects : k = nm "XObject" → ∃ v, E.R.resolve1 o = .ok v

theorem listValue_ok {R : Resolver} {o v : Obj} (h : R.resolve1 o = .ok v) : ∃ l, R.listValue o = .ok l := by
  simp only [Resolver.listValue, h]
  split <;> first | exact ⟨_, rfl⟩ | simp_all

theorem dictValue_ok {R : Resolver} {o v : Obj} (h : R.resolve1 o = .ok v) : ∃ l, R.dictValue o = .ok l := by
  simp only [Resolver.dictValue, h]
  split <;> first | exact ⟨_, rfl⟩ | simp_all

theorem initEntry_run {E : Env1} {k : Key} {o : Obj} (h : EntryUsable E k o) (s : St) (hs : SpacesReady s.csmap) :
    ∃ s', initEntry E k o s = .ok s' ∧ SpacesReady s'.csmap ∧ (∀ k, (dictGet s.csmap k).isSome → (dictGet s'.csmap k).isSome) ∧
      (k = nm "ColorSpace" → ∀ es, E.R.resolve1 o = .ok (.dict es) → ∀ e ∈ es, (dictGet s'.csmap e.1).isSome) := by
  unfold initEntry
  split
  · rename_i hk
    obtain ⟨es, h1, h2⟩ := h.fonts hk
    obtain ⟨s', h3⟩ := initFonts_run h2 s
    simp only [Resolver.dictValue, h1, h3]
    obtain ⟨m, rfl, _⟩ := initFonts_frame h3
    exact ⟨_, rfl, hs, fun _ h => h, fun e => absurd (hk.symm.trans e) (by decide)⟩
  · split
    · rename_i hk
      obtain ⟨es, h1, h2⟩ := h.spaces hk
      obtain ⟨s', h3, h4, h5, h6⟩ := initSpaces_run h2 s hs
      simp only [Resolver.dictValue, h1, h3]
      refine ⟨_, rfl, h4, h5, fun _ es' e => ?_⟩
      cases e
      exact h6
    · rename_i hcs
      split
      · rename_i hk
        obtain ⟨v, h1⟩ := h.procSet hk
        obtain ⟨l, h2⟩ := listValue_ok h1
        simp only [h2]
        exact ⟨_, rfl, hs, fun _ h => h, fun e => absurd e hcs⟩
      · split
        · rename_i hk
          obtain ⟨v, h1⟩ := h.xobjects hk
          obtain ⟨l, h2⟩ := dictValue_ok h1
          simp only [h2]
          exact ⟨_, rfl, hs, fun _ h => h, fun e => absurd e hcs⟩
        · exact ⟨_, rfl, hs, fun _ h => h, fun e => absurd e hcs⟩

theorem initEntries_run {E : Env1} {l : List (Key × Obj)} (h : ∀ e ∈ l, EntryUsable E e.1 e.2) (s : St) (hs : SpacesReady s.csmap) :
    ∃ s', initEntries E l s = .ok s' ∧ SpacesReady s'.csmap ∧ (∀ k, (dictGet s.csmap k).isSome → (dictGet s'.csmap k).isSome) ∧
      (∀ o es, dictGet l (nm "ColorSpace") = some o → E.R.resolve1 o = .ok (.dict es) → ∀ e ∈ es, (dictGet s'.csmap e.1).isSome) := by
  induction l generalizing s with
  | nil => exact ⟨s, rfl, hs, fun _ h => h, by intro o es h; cases h⟩
  | cons e l ih =>
    obtain ⟨k, o⟩ := e
    obtain ⟨s1, h1, h2, h3, h4⟩ := initEntry_run (h _ (List.mem_cons_self ..)) s hs
    obtain ⟨s', h5, h6, h7, h8⟩ := ih (fun e he => h e (List.mem_cons_of_mem _ he)) s1 h2
    refine ⟨s', by simp only [initEntries, h1, h5], h6, fun k hk => h7 k (h3 k hk), ?_⟩
    intro o' es hd he e hee
    simp only [dictGet] at hd
    split at hd
    · rename_i hk
      cases hd
      exact h7 _ (h4 (by first | exact hk | exact hk.symm) es he e hee)
    · exact h8 o' es hd he e hee

/-! ### The state -/

/-- The parameters for showing text are numbers. -/
structure TextReady (t : TState) : Prop where
  fontsize : IsNumber t.fontsize
  charspace : IsNumber t.charspace
  wordspace : IsNumber t.wordspace
  scaling : IsNumber t.scaling
  rise : IsNumber t.rise

/-- The coordinates of the points are numbers. -/
def PathReady (l : List CurvePath) : Prop := ∀ c ∈ l, ∀ p ∈ c.points, p.1.isSome ∧ p.2.isSome

/-- The state of the interpreter agrees with the pen and has no values that make operators fail. -/
structure Fit (E : Env1) (ig : Bool) (res : List (Key × Obj)) (pen : Pen) (s : St) : Prop where
  agrees : Agrees E ig (.dict res) pen s
  text : TextReady s.text
  saved : ∀ e ∈ s.gstack, TextReady e.2.1
  path : PathReady s.curves
  spaces : SpacesReady s.csmap
  known : ∀ n ∈ Spec.spaceNames, (dictGet s.csmap (.name n)).isSome
  named : ∀ n o, ResourceNamed E.R (.dict res) "ColorSpace" n o → (dictGet s.csmap (.name n)).isSome
  stroke : SpaceReady s.graphics.scolspace
  fill : SpaceReady s.graphics.ncolspace

theorem fit_frame {E : Env1} {ig : Bool} {res : List (Key × Obj)} {pen : Pen} {s s' : St} (h : Fit E ig res pen s) (hv : view s' = view s)
    (ht : TextReady s'.text) (hp : PathReady s'.curves) (hc : s'.csmap = s.csmap) (hg : SpaceReady s'.graphics.scolspace) (hg' : SpaceReady s'.graphics.ncolspace) :
    Fit E ig res pen { s' with done := [] } := by
  refine ⟨agrees_of_view h.agrees hv, ht, ?_, hp, ?_, ?_, ?_, hg, hg'⟩
  · have : s'.gstack = s.gstack := by simp only [view, Prod.mk.injEq] at hv; exact hv.2.2.1
    simpa only [this] using h.saved
  · simpa only [hc] using h.spaces
  · simpa only [hc] using h.known
  · simpa only [hc] using h.named

theorem int_number (n : Int) : IsNumber (.int n) := ⟨n, rfl⟩

theorem fit_start {E : Env1} {res : List (Key × Obj)} (hR : E.R.resolve1 (.dict res) = .ok (.dict res)) (hres : UsableResources E res) (ctm : Mat) (ig : Bool) (g : Option GState)
    (hg : ∀ x, g = some x → SpaceReady x.scolspace ∧ SpaceReady x.ncolspace) :
    ∃ s, prepState E ctm (.dict res) ig = .ok s ∧ Fit E ig res Pen.start { s with graphics := g.getD s.graphics } := by
  have hpre : SpacesReady predefinedSpaces := by
    intro k v h
    have hk : k ∈ predefinedSpaces.map Prod.fst := List.mem_map.2 ⟨_, dictGet_mem_list h, rfl⟩
    have : ∃ n ∈ Spec.spaceNames, k = .name n := by
      have hall : ∀ k ∈ predefinedSpaces.map Prod.fst, k ∈ Spec.spaceNames.map Key.name := by decide +kernel
      obtain ⟨n, hn, e⟩ := List.mem_map.1 (hall k hk)
      exact ⟨n, hn, e.symm⟩
    obtain ⟨n, hn, rfl⟩ := this
    obtain ⟨v', h1, h2⟩ := predefined_ready hn
    rw [h] at h1
    cases h1
    exact h2
  have hus : ∀ e ∈ res, EntryUsable E e.1 e.2 := by
    rintro ⟨k, o⟩ he
    have hd : dictGet res k = some o := (dictGet_mem res k o hres.distinct).2 he
    exact ⟨fun e => hres.fonts o (by rw [← e]; exact hd), fun e => hres.spaces o (by rw [← e]; exact hd), fun e => hres.procSet o (by rw [← e]; exact hd),
      fun e => hres.xobjects o (by rw [← e]; exact hd)⟩
  let gray : Option ColorSpace := some ⟨asc "DeviceGray", .int 1⟩
  let s0 : St := { csmap := predefinedSpaces, tmatrix := ctm, resources := .dict res, text := { ignoreBad := ig },
                   graphics := { ncolspace := gray, scolspace := gray } }
  obtain ⟨s, h1, h2, h3, h4⟩ := initEntries_run hus s0 hpre
  have hp : prepState E ctm (.dict res) ig = .ok s := by
    show initResources E s0 = .ok s
    simp only [initResources, Resolver.dictValue]
    show (match (match E.R.resolve1 (.dict res) with | .ok (.dict d) => Except.ok d | .ok _ => .ok [] | .error e => .error e) with | .error e => Except.error e | .ok d => initEntries E d s0) = _
    rw [hR]
    exact h1
  refine ⟨s, hp, ?_⟩
  have hag := agrees_start hp
  have hnamed : ∀ n o, ResourceNamed E.R (.dict res) "ColorSpace" n o → (dictGet s.csmap (.name n)).isSome := by
    rintro n o ⟨d, es, hr, _, he, _, hk⟩
    rw [hR] at hr
    cases hr
    cases he with
    | given h5 h6 => exact h4 _ _ h5 h6 _ (dictGet_mem_list hk)
  have hknown : ∀ n ∈ Spec.spaceNames, (dictGet s.csmap (.name n)).isSome := by
    intro n hn
    obtain ⟨v, h5, _⟩ := predefined_ready hn
    exact h3 _ (by show (dictGet predefinedSpaces _).isSome; rw [h5]; rfl)
  have hgs : SpaceReady (g.getD s.graphics).scolspace ∧ SpaceReady (g.getD s.graphics).ncolspace := by
    cases g with
    | some x => exact hg x rfl
    | none =>
      obtain ⟨c, f, x, rfl, _, _⟩ := initEntries_frame h1
      exact ⟨⟨_, _, rfl, rfl⟩, ⟨_, _, rfl, rfl⟩⟩
  obtain ⟨c, f, x, rfl, _, _⟩ := initEntries_frame h1
  exact ⟨⟨hag.font, hag.ignore, hag.saved, hag.savedIgnore, hag.shown, hag.resources, hag.fonts, hag.xobjs, hag.done⟩,
    ⟨int_number _, int_number _, int_number _, int_number _, int_number _⟩, by simp [s0], by simp [s0, PathReady], h2, hknown, hnamed, hgs.1, hgs.2⟩


/-! ### Operators -/

/-- The operator succeeds, and the state fits afterwards. -/
def Goes (E : Env1) (ig : Bool) (res : List (Key × Obj)) (pen : Pen) (f : Op) (as : List Obj) (s : St) : Prop :=
  ∃ s1, f as s = .ok s1 ∧ Fit E ig res pen { s1 with done := [] } ∧ ∀ i ∈ s1.done, NotForm i

theorem number_of {o : Obj} (h : IsNumber o) : ∃ q, o.num? = some q ∧ o.num = .ok q := by
  obtain ⟨q, h⟩ := h
  exact ⟨q, h, num_of h⟩

theorem number_operand {o : Obj} (h : IsNumber o) : Operand o := by
  obtain ⟨q, h⟩ := h
  exact num?_operand h

theorem six {as : List Obj} (h : as.length = 6) (hn : ∀ a ∈ as, IsNumber a) : ∃ m, matOf as = .ok m := by
  match as, h with
  | [a, b, c, d, e, f], _ =>
    simp only [List.mem_cons, List.not_mem_nil, or_false, forall_eq_or_imp, forall_eq] at hn
    obtain ⟨ha, hb, hc, hd, he, hf⟩ := hn
    obtain ⟨_, _, ha⟩ := number_of ha
    obtain ⟨_, _, hb⟩ := number_of hb
    obtain ⟨_, _, hc⟩ := number_of hc
    obtain ⟨_, _, hd⟩ := number_of hd
    obtain ⟨_, _, he⟩ := number_of he
    obtain ⟨_, _, hf⟩ := number_of hf
    exact ⟨_, by simp only [matOf, ha, hb, hc, hd, he, hf, bind, Except.bind]; rfl⟩

theorem pointsOf_ready : ∀ (as : List Obj), (∀ a ∈ as, IsNumber a) → ∀ p ∈ pointsOf as, p.1.isSome ∧ p.2.isSome
  | [], _, p, hp => by cases hp
  | [_], _, p, hp => by cases hp
  | a :: b :: as, h, p, hp => by
    simp only [pointsOf, List.mem_cons] at hp
    simp only [List.mem_cons, forall_eq_or_imp] at h
    rcases hp with rfl | hp
    · obtain ⟨_, ha, _⟩ := number_of h.1
      obtain ⟨_, hb, _⟩ := number_of h.2.1
      exact ⟨by simp [ha], by simp [hb]⟩
    · exact pointsOf_ready as h.2.2 p hp

theorem point_ready {p : Option ℚ × Option ℚ} (h : p.1.isSome ∧ p.2.isSome) : ∃ q, point p = .ok q := by
  obtain ⟨x, y⟩ := p
  obtain ⟨h1, h2⟩ := h
  cases x with
  | none => cases h1
  | some x => cases y with
    | none => cases h2
    | some y => exact ⟨_, rfl⟩

theorem endPoints_ready {l : List CurvePath} (h : PathReady l) : ∃ ps, endPoints l = .ok ps := by
  induction l with
  | nil => exact ⟨[], rfl⟩
  | cons c l ih =>
    obtain ⟨ps, hps⟩ := ih fun c hc => h c (List.mem_cons_of_mem _ hc)
    simp only [endPoints]
    cases he : endPoint c with
    | none => exact ⟨ps, hps⟩
    | some p =>
      have hp : p ∈ c.points := by
        simp only [endPoint] at he
        split at he <;> first | exact List.mem_of_getElem? he | cases he
      obtain ⟨q, hq⟩ := point_ready (h c (List.mem_cons_self ..) p hp)
      simp only [hq, hps]
      exact ⟨_, rfl⟩

theorem transformed_ready {m : Mat} {l : List (Option ℚ × Option ℚ)} (h : ∀ p ∈ l, p.1.isSome ∧ p.2.isSome) : ∃ ps, transformed m l = .ok ps ∧ ps.length = l.length := by
  induction l with
  | nil => exact ⟨[], rfl, rfl⟩
  | cons p l ih =>
    obtain ⟨ps, h1, h2⟩ := ih fun q hq => h q (List.mem_cons_of_mem _ hq)
    obtain ⟨q, hq⟩ := point_ready (h p (List.mem_cons_self ..))
    exact ⟨applyPt m q :: ps, by simp only [transformed, hq, h1], by simp [h2]⟩

theorem makeCurve_ready {m : Mat} {g : GState} {eo : Bool} {l : List CurvePath} (h : PathReady l) : ∃ i, makeCurve m g eo l = .ok i := by
  unfold makeCurve
  split
  · rename_i p0 p1
    obtain ⟨ps, h1, h2⟩ := transformed_ready (m := m) (l := [p0, p1]) (by
      intro p hp
      simp only [List.mem_cons, List.not_mem_nil, or_false] at hp
      rcases hp with rfl | rfl
      · exact h ⟨.moveTo, [p]⟩ (by simp) _ (by simp)
      · exact h ⟨.lineTo, [p]⟩ (by simp) _ (by simp))
    match ps, h2 with
    | [(_, _), (_, _)], _ => simp only [h1]; exact ⟨_, rfl⟩
  · rename_i p0 p1 p2 p3
    obtain ⟨ps, h1, h2⟩ := transformed_ready (m := m) (l := [p0, p1, p2, p3]) (by
      intro p hp
      simp only [List.mem_cons, List.not_mem_nil, or_false] at hp
      rcases hp with rfl | rfl | rfl | rfl
      · exact h ⟨.moveTo, [p]⟩ (by simp) _ (by simp)
      · exact h ⟨.lineTo, [p]⟩ (by simp) _ (by simp)
      · exact h ⟨.lineTo, [p]⟩ (by simp) _ (by simp)
      · exact h ⟨.lineTo, [p]⟩ (by simp) _ (by simp))
    match ps, h2 with
    | [(_, _), (_, _), (_, _), (_, _)], _ =>
      simp only [h1]
      split <;> exact ⟨_, rfl⟩
  · obtain ⟨ps, hps⟩ := endPoints_ready h
    simp only [hps]
    exact ⟨_, rfl⟩

theorem bytesOfColor_ready {as : List Obj} (h : ∀ a ∈ as, IsNumber a) : ∃ l, bytesOfColor as = .ok l := by
  induction as with
  | nil => exact ⟨[], rfl⟩
  | cons a as ih =>
    obtain ⟨l, hl⟩ := ih fun b hb => h b (List.mem_cons_of_mem _ hb)
    obtain ⟨q, _, hq⟩ := number_of (h a (List.mem_cons_self ..))
    exact ⟨_, by simp only [bytesOfColor, hq, hl]; rfl⟩

section
variable {E : Env1} {ig : Bool} {res : List (Key × Obj)} {pen : Pen} {s : St}

/-- A change of the graphics state that keeps the colour spaces. -/
theorem goes_graphics (h : Fit E ig res pen s) {f : Op} {as : List Obj} {g : GState} (hf : f as s = .ok { s with graphics := g })
    (h1 : g.scolspace = s.graphics.scolspace) (h2 : g.ncolspace = s.graphics.ncolspace) : Goes E ig res pen f as s :=
  ⟨_, hf, fit_frame h rfl h.text h.path rfl (h1 ▸ h.stroke) (h2 ▸ h.fill), by simp [h.agrees.done]⟩

/-- A change of the text state that keeps the font and numbers. -/
theorem goes_text (h : Fit E ig res pen s) {f : Op} {as : List Obj} {t : TState} {l : List (ℚ × ℚ)} (hf : f as s = .ok { s with text := t, lines := l })
    (h1 : t.font = s.text.font) (h2 : t.ignoreBad = s.text.ignoreBad) (ht : TextReady t) : Goes E ig res pen f as s :=
  ⟨_, hf, fit_frame h (by simp only [view, h1, h2]) ht h.path rfl h.stroke h.fill, by simp [h.agrees.done]⟩

theorem goes_path (h : Fit E ig res pen s) {f : Op} {as : List Obj} {l : List CurvePath} (hf : f as s = .ok { s with curves := l }) (hl : PathReady l) :
    Goes E ig res pen f as s :=
  ⟨_, hf, fit_frame h rfl h.text hl rfl h.stroke h.fill, by simp [h.agrees.done]⟩

theorem goes_paint (h : Fit E ig res pen s) (eo : Bool) (as : List Obj) : Goes E ig res pen (opPaint eo) as s := by
  obtain ⟨i, hi⟩ := makeCurve_ready (m := s.tmatrix) (g := s.graphics) (eo := eo) h.path
  refine ⟨_, by simp only [opPaint, hi]; rfl, ?_, ?_⟩
  · exact fit_frame h rfl h.text (by simp [PathReady]) rfl h.stroke h.fill
  simp only [h.agrees.done, List.nil_append, List.mem_singleton]
  rintro _ rfl
  exact (makeCurve_quiet hi).1

theorem path_append {l : List CurvePath} (h : PathReady l) {c : List CurvePath} (hc : PathReady c) : PathReady (l ++ c) := by
  intro x hx
  rcases List.mem_append.1 hx with hx | hx
  · exact h x hx
  · exact hc x hx

theorem goes_closePaint (h : Fit E ig res pen s) (eo : Bool) (as : List Obj) : Goes E ig res pen (opClosePaint eo) as s := by
  have h' : Fit E ig res pen { s with curves := s.curves ++ [⟨.closePath, []⟩], done := [] } :=
    fit_frame (s' := { s with curves := s.curves ++ [⟨.closePath, []⟩] }) h rfl h.text (path_append h.path (by intro c hc; simp only [List.mem_singleton] at hc; subst hc; simp)) rfl h.stroke h.fill
  have hs : ({ s with curves := s.curves ++ [⟨.closePath, []⟩], done := [] } : St) = { s with curves := s.curves ++ [⟨.closePath, []⟩] } := by rw [← h.agrees.done]
  rw [hs] at h'
  exact goes_paint h' eo as

theorem goes_custom (h : Fit E ig res pen s) (as : List Obj) {get : GState → Option ColorSpace} {set : GState → Option ColorSpace → List Obj → GState}
    (hget : SpaceReady (get s.graphics)) (h1 : ∀ g c vs, (set g c vs).scolspace = g.scolspace) (h2 : ∀ g c vs, (set g c vs).ncolspace = g.ncolspace) :
    Goes E ig res pen (opCustom get set) as s := by
  obtain ⟨c, n, hc, hn⟩ := hget
  refine ⟨_, by simp only [opCustom, hc, hn]; rfl, ?_, by simp [h.agrees.done]⟩
  refine fit_frame h rfl h.text h.path rfl ?_ ?_
  · simp only [h1]; exact h.stroke
  · simp only [h2]; exact h.fill

theorem goes_bare (h : Fit E ig res pen s) {n : String} (hn : n ∈ Spec.bareOperators) : ∃ f, dictGet (commands E.R) (methodName (asc n)) = some (0, f) ∧
    Goes E ig res pen f [] s := by
  simp only [Spec.bareOperators, List.mem_cons, List.not_mem_nil, or_false] at hn
  rcases hn with rfl | rfl | rfl | rfl | rfl | rfl | rfl | rfl | rfl | rfl | rfl | rfl | rfl | rfl | rfl | rfl
  · exact ⟨_, rfl, goes_path h rfl (path_append h.path (by intro c hc; simp only [List.mem_singleton] at hc; subst hc; simp [pointsOf]))⟩
  · exact ⟨_, rfl, goes_paint h _ _⟩
  · exact ⟨_, rfl, goes_closePaint h _ _⟩
  · exact ⟨_, rfl, goes_paint h _ _⟩
  · exact ⟨_, rfl, goes_paint h _ _⟩
  · exact ⟨_, rfl, goes_paint h _ _⟩
  · exact ⟨_, rfl, goes_paint h _ _⟩
  · exact ⟨_, rfl, goes_paint h _ _⟩
  · exact ⟨_, rfl, goes_closePaint h _ _⟩
  · exact ⟨_, rfl, goes_closePaint h _ _⟩
  · exact ⟨_, rfl, goes_path h rfl (by simp [PathReady])⟩
  · exact ⟨_, rfl, goes_text h rfl rfl rfl ⟨h.text.fontsize, h.text.charspace, h.text.wordspace, h.text.scaling, h.text.rise⟩⟩
  · exact ⟨_, rfl, goes_custom h _ h.stroke (fun _ _ _ => rfl) (fun _ _ _ => rfl)⟩
  · exact ⟨_, rfl, goes_custom h _ h.stroke (fun _ _ _ => rfl) (fun _ _ _ => rfl)⟩
  · exact ⟨_, rfl, goes_custom h _ h.fill (fun _ _ _ => rfl) (fun _ _ _ => rfl)⟩
  · exact ⟨_, rfl, goes_custom h _ h.fill (fun _ _ _ => rfl) (fun _ _ _ => rfl)⟩

theorem known_space (h : Fit E ig res pen s) {n : Bytes} (hn : n ∈ Spec.spaceNames) : ∃ c, dictGet s.csmap (.name n) = some c ∧ SpaceReady c := by
  have := h.known n hn
  obtain ⟨c, hc⟩ := Option.isSome_iff_exists.1 this
  exact ⟨c, hc, h.spaces _ _ hc⟩

theorem goes_color (h : Fit E ig res pen s) (as : List Obj) {n : String} (hn : asc n ∈ Spec.spaceNames) {set : GState → Option ColorSpace → List Obj → GState}
    (h1 : ∀ g c vs, (set g c vs).scolspace = g.scolspace) (h2 : ∀ g c vs, (set g c vs).ncolspace = g.ncolspace) : Goes E ig res pen (opColor n set) as s := by
  obtain ⟨c, hc, _⟩ := known_space h hn
  refine goes_graphics h (by simp only [opColor, nm, hc]; rfl) ?_ ?_
  · exact h1 ..
  · exact h2 ..

theorem goes_rgb (h : Fit E ig res pen s) {as : List Obj} (ha : ∀ a ∈ as, IsNumber a) {set : GState → Option ColorSpace → List Obj → GState}
    (h1 : ∀ g c vs, (set g c vs).scolspace = g.scolspace) (h2 : ∀ g c vs, (set g c vs).ncolspace = g.ncolspace) : Goes E ig res pen (opRgb set) as s := by
  obtain ⟨c, hc, _⟩ := known_space h (n := asc "DeviceRGB") (by decide)
  obtain ⟨l, hl⟩ := bytesOfColor_ready ha
  refine goes_graphics h (by simp only [opRgb, nm, hc, hl]; rfl) ?_ ?_
  · exact h1 ..
  · exact h2 ..

theorem goes_curve (h : Fit E ig res pen s) (m : CurveMethod) {as : List Obj} (ha : ∀ a ∈ as, IsNumber a) : Goes E ig res pen (opCurve m) as s :=
  goes_path h rfl (path_append h.path (by intro c hc; simp only [List.mem_singleton] at hc; subst hc; exact pointsOf_ready as ha))

theorem one {as : List Obj} (h : as.length = 1) : ∃ a, as = [a] := List.length_eq_one_iff.1 h

theorem goes_setG (h : Fit E ig res pen s) {as : List Obj} (hl : as.length = 1) {f : GState → Obj → GState} (h1 : ∀ g x, (f g x).scolspace = g.scolspace)
    (h2 : ∀ g x, (f g x).ncolspace = g.ncolspace) : Goes E ig res pen (setG f) as s := by
  obtain ⟨a, rfl⟩ := one hl
  exact goes_graphics h rfl (h1 ..) (h2 ..)

theorem goes_setT (h : Fit E ig res pen s) {as : List Obj} (hl : as.length = 1) (ha : ∀ a ∈ as, IsNumber a) {f : TState → Obj → TState}
    (h1 : ∀ g x, (f g x).font = g.font) (h2 : ∀ g x, (f g x).ignoreBad = g.ignoreBad) (h3 : ∀ t x, TextReady t → IsNumber x → TextReady (f t x)) :
    Goes E ig res pen (setT f) as s := by
  obtain ⟨a, rfl⟩ := one hl
  exact goes_text (l := s.lines) h rfl (h1 ..) (h2 ..) (h3 _ _ h.text (ha a (by simp)))

theorem goes_numbers (h : Fit E ig res pen s) {n : String} {k : Nat} (hn : (n, k) ∈ Spec.numberOperators) {as : List Obj} (hl : as.length = k)
    (ha : ∀ a ∈ as, IsNumber a) : ∃ f, dictGet (commands E.R) (methodName (asc n)) = some (as.length, f) ∧ Goes E ig res pen f as s := by
  have two : as.length = 2 → ∃ x y qx qy, as = [x, y] ∧ x.num = .ok qx ∧ y.num = .ok qy := by
    intro hl
    match as, hl with
    | [x, y], _ =>
      obtain ⟨qx, _, hx⟩ := number_of (ha x (by simp))
      obtain ⟨qy, _, hy⟩ := number_of (ha y (by simp))
      exact ⟨x, y, qx, qy, rfl, hx, hy⟩
  simp only [Spec.numberOperators, List.mem_cons, List.not_mem_nil, or_false, Prod.mk.injEq] at hn
  rcases hn with ⟨rfl, rfl⟩ | ⟨rfl, rfl⟩ | ⟨rfl, rfl⟩ | ⟨rfl, rfl⟩ | ⟨rfl, rfl⟩ | ⟨rfl, rfl⟩ | ⟨rfl, rfl⟩ | ⟨rfl, rfl⟩ | ⟨rfl, rfl⟩ | ⟨rfl, rfl⟩ | ⟨rfl, rfl⟩ |
    ⟨rfl, rfl⟩ | ⟨rfl, rfl⟩ | ⟨rfl, rfl⟩ | ⟨rfl, rfl⟩ | ⟨rfl, rfl⟩ | ⟨rfl, rfl⟩ | ⟨rfl, rfl⟩ | ⟨rfl, rfl⟩ | ⟨rfl, rfl⟩ | ⟨rfl, rfl⟩ | ⟨rfl, rfl⟩ |
    ⟨rfl, rfl⟩ | ⟨rfl, rfl⟩ | ⟨rfl, rfl⟩ | ⟨rfl, rfl⟩ | ⟨rfl, rfl⟩ <;> rw [hl]
  · obtain ⟨m, hm⟩ := six hl ha
    refine ⟨_, rfl, _, by simp only [opConcat, hm, bind, Except.bind]; rfl, ?_, by simp [h.agrees.done]⟩
    exact fit_frame h rfl h.text h.path rfl h.stroke h.fill
  · exact ⟨_, rfl, goes_setG h hl (fun _ _ => rfl) (fun _ _ => rfl)⟩
  · exact ⟨_, rfl, goes_setG h hl (fun _ _ => rfl) (fun _ _ => rfl)⟩
  · exact ⟨_, rfl, goes_setG h hl (fun _ _ => rfl) (fun _ _ => rfl)⟩
  · exact ⟨_, rfl, goes_setG h hl (fun _ _ => rfl) (fun _ _ => rfl)⟩
  · exact ⟨_, rfl, goes_setG h hl (fun _ _ => rfl) (fun _ _ => rfl)⟩
  · exact ⟨_, rfl, goes_curve h _ ha⟩
  · exact ⟨_, rfl, goes_curve h _ ha⟩
  · exact ⟨_, rfl, goes_curve h _ ha⟩
  · exact ⟨_, rfl, goes_curve h _ ha⟩
  · exact ⟨_, rfl, goes_curve h _ ha⟩
  · match as, hl with
    | [x, y, w, t], _ =>
      simp only [List.mem_cons, List.not_mem_nil, or_false, forall_eq_or_imp, forall_eq] at ha
      obtain ⟨hx, hy, hw, ht⟩ := ha
      obtain ⟨_, _, hx⟩ := number_of hx
      obtain ⟨_, _, hy⟩ := number_of hy
      obtain ⟨_, _, hw⟩ := number_of hw
      obtain ⟨_, _, ht⟩ := number_of ht
      refine ⟨_, rfl, goes_path h (by simp only [opRect, hx, hy, hw, ht, bind, Except.bind]; rfl) ?_⟩
      refine path_append h.path ?_
      intro c hc
      simp only [List.mem_cons, List.not_mem_nil, or_false] at hc
      rcases hc with rfl | rfl | rfl | rfl | rfl <;> simp
  · exact ⟨_, rfl, goes_color h _ (by decide) (fun _ _ _ => rfl) (fun _ _ _ => rfl)⟩
  · exact ⟨_, rfl, goes_color h _ (by decide) (fun _ _ _ => rfl) (fun _ _ _ => rfl)⟩
  · exact ⟨_, rfl, goes_rgb h ha (fun _ _ _ => rfl) (fun _ _ _ => rfl)⟩
  · exact ⟨_, rfl, goes_rgb h ha (fun _ _ _ => rfl) (fun _ _ _ => rfl)⟩
  · exact ⟨_, rfl, goes_color h _ (by decide) (fun _ _ _ => rfl) (fun _ _ _ => rfl)⟩
  · exact ⟨_, rfl, goes_color h _ (by decide) (fun _ _ _ => rfl) (fun _ _ _ => rfl)⟩
  · exact ⟨_, rfl, goes_setT h hl ha (fun _ _ => rfl) (fun _ _ => rfl) (fun _ _ h hx => ⟨h.fontsize, hx, h.wordspace, h.scaling, h.rise⟩)⟩
  · exact ⟨_, rfl, goes_setT h hl ha (fun _ _ => rfl) (fun _ _ => rfl) (fun _ _ h hx => ⟨h.fontsize, h.charspace, hx, h.scaling, h.rise⟩)⟩
  · exact ⟨_, rfl, goes_setT h hl ha (fun _ _ => rfl) (fun _ _ => rfl) (fun _ _ h hx => ⟨h.fontsize, h.charspace, h.wordspace, hx, h.rise⟩)⟩
  · obtain ⟨a, rfl⟩ := one hl
    obtain ⟨q, _, hq⟩ := number_of (ha a (by simp))
    refine ⟨_, rfl, goes_text (l := s.lines) h (by simp only [opLeading, hq]; rfl) ?_ ?_ ?_⟩
    · rfl
    · rfl
    · exact ⟨h.text.fontsize, h.text.charspace, h.text.wordspace, h.text.scaling, h.text.rise⟩
  · exact ⟨_, rfl, goes_setT h hl ha (fun _ _ => rfl) (fun _ _ => rfl) (fun _ _ h hx => ⟨h.fontsize, h.charspace, h.wordspace, h.scaling, h.rise⟩)⟩
  · exact ⟨_, rfl, goes_setT h hl ha (fun _ _ => rfl) (fun _ _ => rfl) (fun _ _ h hx => ⟨h.fontsize, h.charspace, h.wordspace, h.scaling, hx⟩)⟩
  · obtain ⟨x, y, qx, qy, rfl, hx, hy⟩ := two hl
    refine ⟨_, rfl, goes_text h (by simp only [opMove, hx, hy, bind, Except.bind, newLine]; rfl) ?_ ?_ ?_⟩
    · rfl
    · rfl
    · exact ⟨h.text.fontsize, h.text.charspace, h.text.wordspace, h.text.scaling, h.text.rise⟩
  · obtain ⟨x, y, qx, qy, rfl, hx, hy⟩ := two hl
    refine ⟨_, rfl, goes_text h (by simp only [opMoveLead, hx, hy, bind, Except.bind, newLine]; rfl) ?_ ?_ ?_⟩
    · rfl
    · rfl
    · exact ⟨h.text.fontsize, h.text.charspace, h.text.wordspace, h.text.scaling, h.text.rise⟩
  · obtain ⟨m, hm⟩ := six hl ha
    refine ⟨_, rfl, goes_text h (by simp only [opMatrix, hm, bind, Except.bind, newLine]; rfl) ?_ ?_ ?_⟩
    · rfl
    · rfl
    · exact ⟨h.text.fontsize, h.text.charspace, h.text.wordspace, h.text.scaling, h.text.rise⟩

/-! ### Showing text -/

theorem showPar_ready {f : Font} {m : Mat} {t : TState} (h : TextReady t) : ∃ p, showPar f m t = .ok p ∧ IsNumber p.rise := by
  obtain ⟨_, _, h1⟩ := number_of h.scaling
  obtain ⟨_, _, h2⟩ := number_of h.charspace
  obtain ⟨_, _, h3⟩ := number_of h.wordspace
  obtain ⟨_, _, h4⟩ := number_of h.fontsize
  refine ⟨_, by simp only [showPar, h1, h2, h3, h4, bind, Except.bind]; rfl, ?_⟩
  exact h.rise

theorem charBbox_ready {f : Font} {p : ShowPar} (hp : IsNumber p.rise) {m : Mat} {c : Int} (hc : Measured f c) : ∃ b, charBbox f p m c = .ok b := by
  obtain ⟨⟨w, hw⟩, h1, h2⟩ := hc
  obtain ⟨r, _, hr⟩ := number_of hp
  unfold charBbox
  simp only [hw, hr, bind, Except.bind]
  cases hv : f.vertical with
  | true =>
    obtain ⟨⟨v, h1⟩, ⟨fw, h3⟩⟩ := h1 hv
    simp only [if_true, h1, h3]
    exact ⟨_, rfl⟩
  | false =>
    obtain ⟨⟨v, h1⟩, ⟨fw, h3⟩⟩ := h2 hv
    simp only [h1, h3]
    exact ⟨_, rfl⟩

theorem renderCids_ready {f : Font} {p : ShowPar} (hp : IsNumber p.rise) {codes : List Int} {ts : List PyStr} (h : List.Forall₂ (CodeShows f ig) codes ts)
    (hm : ∀ c ∈ codes, Measured f c) (r : Render) : ∃ r', renderCids f p ig codes r = .ok r' ∧ r'.chars.length = r.chars.length + codes.length := by
  induction h generalizing r with
  | nil => exact ⟨r, rfl, rfl⟩
  | @cons c t codes ts hc _ ih =>
    have ht : toText f ig c = .ok t := by
      cases hc with
      | known h => simp only [toText, h]
      | unknown h hi => simp only [toText, h, hi, and_self, if_true]
    obtain ⟨b, hb⟩ := charBbox_ready (m := translateMatrix p.matrix (if r.need then bump f.vertical r.line p.charspace else r.line)) hp (hm c (List.mem_cons_self ..))
    obtain ⟨r', h1, h2⟩ := ih (fun c hc => hm c (List.mem_cons_of_mem _ hc))
      ⟨if c = 32 ∧ p.wordspace ≠ 0 then bump f.vertical (bump f.vertical (if r.need then bump f.vertical r.line p.charspace else r.line) b.1) p.wordspace
        else bump f.vertical (if r.need then bump f.vertical r.line p.charspace else r.line) b.1, true, r.chars ++ [(t, b.2)]⟩
    refine ⟨r', ?_, ?_⟩
    · simp only [renderCids, renderCid, ht, hb, bind, Except.bind]
      exact h1
    · rw [h2]
      simp only [List.length_append, List.length_cons, List.length_nil]
      omega

theorem renderSeq_ready {f : Font} {p : ShowPar} (hp : IsNumber p.rise) {l : List Obj} {t : PyStr} (h : PlacedArray f ig l t) (r : Render) :
    ∃ r', renderSeq f p ig l r = .ok r' ∧ r.chars.length ≤ r'.chars.length ∧ (HasCharacter f l → r.chars.length < r'.chars.length) := by
  induction h generalizing r with
  | nil => exact ⟨r, rfl, le_refl _, by rintro ⟨_, _, _, h, _⟩; cases h⟩
  | @number o q l t hq _ ih =>
    obtain ⟨r', h1, h2, h3⟩ := ih ⟨bump f.vertical r.line (-(q * p.dxscale)), true, r.chars⟩
    refine ⟨r', by simp only [renderSeq, renderObj, hq, h1], h2, ?_⟩
    rintro ⟨s, c, codes, hm, hd⟩
    rcases List.mem_cons.1 hm with rfl | hm
    · cases hq
    · exact h3 ⟨s, c, codes, hm, hd⟩
  | @string s l t u hs _ ih =>
    obtain ⟨codes, ts, h1, h2, _, h4⟩ := hs
    obtain ⟨r1, h5, h6⟩ := renderCids_ready hp h2 h4 r
    obtain ⟨r', h7, h8, h9⟩ := ih r1
    refine ⟨r', by simp only [renderSeq, renderObj, Obj.num?, h1, h5, h7], by omega, ?_⟩
    rintro ⟨s', c, codes', hm, hd⟩
    rcases List.mem_cons.1 hm with e | hm
    · cases e
      rw [h1] at hd
      cases hd
      simp only [List.length_cons] at h6
      omega
    · have := h9 ⟨s', c, codes', hm, hd⟩
      omega

theorem placedText_array {f : Font} {str : Bytes} {v : PyStr} (h : PlacedText f ig str v) : PlacedArray f ig [.str str] v := by
  have := PlacedArray.string h .nil
  rwa [List.append_nil] at this

theorem placedArray_text {f : Font} {l : List Obj} {v : PyStr} (h : PlacedArray f ig l v) : ArrayText f ig l v := by
  induction h with
  | nil => exact .nil
  | number h _ ih => exact .number h ih
  | string h _ ih =>
    obtain ⟨codes, ts, h1, h2, h3, _⟩ := h
    exact .string ⟨codes, ts, h1, h2, h3⟩ ih

theorem goes_show {f : Font} {u : PyStr} {saved : List (Option Font)} (h : Fit E ig res ⟨some f, saved, some u⟩ s) {l : List Obj} {v : PyStr}
    (hl : PlacedArray f ig l v) (hc : HasCharacter f l) : ∃ s1, showText l s = .ok s1 ∧ Fit E ig res ⟨some f, saved, some (u ++ v)⟩ { s1 with done := [] } ∧
      ∀ i ∈ s1.done, NotForm i := by
  have hb := h.agrees.shown
  cases hblk : s.block with
  | none => rw [hblk] at hb; cases hb
  | some blk =>
    obtain ⟨p, hp, hr⟩ := showPar_ready (f := f) (m := s.tmatrix) h.text
    have hig := h.agrees.ignore
    obtain ⟨r, h1, _, h3⟩ := renderSeq_ready hr hl ⟨s.lines[s.text.linematrix]?.getD (0, 0), false, []⟩
    have h3 := h3 hc
    obtain ⟨b, hbk⟩ : ∃ b, mkCharBlock f s.text.fontsize s.graphics.ncolor r.chars = .ok b := by
      cases hch : r.chars with
      | nil => rw [hch] at h3; simp at h3
      | cons c cs => exact ⟨_, rfl⟩
    have hshow : ∃ s1, showText l s = .ok s1 := by
      exact ⟨_, by simp only [showText, h.agrees.font, hblk, showSeq, hp, hig, h1, hbk, bind, Except.bind]; rfl⟩
    obtain ⟨s1, hs1⟩ := hshow
    obtain ⟨h4, h5⟩ := showText_shows h.agrees.font h.agrees.shown (by rw [hig]; exact placedArray_text hl) hs1
    have hv : view { s1 with block := s.block } = view s := by rw [h5]; rfl
    have hag := agrees_of_view h.agrees hv
    have e1 : s1.text = s.text := by have := congrArg St.text h5; exact this
    have e2 : s1.curves = s.curves := by have := congrArg St.curves h5; exact this
    have e3 : s1.csmap = s.csmap := by have := congrArg St.csmap h5; exact this
    have e4 : s1.graphics = s.graphics := by have := congrArg St.graphics h5; exact this
    have e5 : s1.gstack = s.gstack := by have := congrArg St.gstack h5; exact this
    have e6 : s1.done = s.done := by have := congrArg St.done h5; exact this
    refine ⟨s1, hs1, ⟨⟨hag.font, hag.ignore, hag.saved, hag.savedIgnore, h4, hag.resources, hag.fonts, hag.xobjs, rfl⟩, ?_, ?_, ?_, ?_, ?_, ?_, ?_, ?_⟩, ?_⟩
    · simpa only [e1] using h.text
    · simpa only [e5] using h.saved
    · simpa only [e2] using h.path
    · simpa only [e3] using h.spaces
    · simpa only [e3] using h.known
    · simpa only [e3] using h.named
    · simpa only [e4] using h.stroke
    · simpa only [e4] using h.fill
    · simp [e6, h.agrees.done]

end

/-! ### The interpreter -/

theorem wellFormed_shows {E : Env1} {ig : Bool} {res : List (Key × Obj)} {pen : Pen} {os : List Obj} {t : PyStr} (h : WellFormed E ig res pen os t) :
    ProgramShows E ig (.dict res) pen os t := by
  have str : ∀ {f ig s v}, PlacedText f ig s v → StringText f ig s v := by
    rintro f ig s v ⟨codes, ts, h1, h2, h3, _⟩
    exact ⟨codes, ts, h1, h2, h3⟩
  have op : ∀ {ig pen t os res} (as : List Obj), (∀ a ∈ as, Operand a) → ProgramShows E ig (.dict res) pen os t → ProgramShows E ig (.dict res) pen (as ++ os) t := by
    intro ig pen t os res as ha h
    induction as with
    | nil => exact h
    | cons a as ih => exact .operand (ha a (List.mem_cons_self ..)) (ih fun b hb => ha b (List.mem_cons_of_mem _ hb))
  have quiet : ∀ {ig pen t os res} (n : String), (operator n ∉ Spec.textOperators ∧ ∀ c ∈ asc n, c ≠ 95) → ProgramShows E ig (.dict res) pen os t →
      ProgramShows E ig (.dict res) pen (operator n :: os) t := fun n h => .other h.1 h.2
  have hnum : ∀ e ∈ Spec.numberOperators, operator e.1 ∉ Spec.textOperators ∧ ∀ c ∈ asc e.1, c ≠ 95 := by decide +kernel
  have hbare : ∀ n ∈ Spec.bareOperators, operator n ∉ Spec.textOperators ∧ ∀ c ∈ asc n, c ≠ 95 := by decide +kernel
  induction h with
  | done => exact .done
  | operand h _ ih => exact .operand h ih
  | save _ ih => exact .save ih
  | restore _ ih => exact .restore ih
  | restoreNone _ ih => exact .restoreNone ih
  | beginText _ ih => exact .beginText ih
  | endText _ ih => exact .endText ih
  | endNone _ ih => exact .endNone ih
  | selectFont h1 h2 _ ih => exact .selectFont (number_operand h1) h2 ih
  | showString h1 _ _ ih => exact .showString (str h1) ih
  | showArray h1 _ _ ih => exact .showArray (placedArray_text h1) ih
  | nextLineShow h1 _ _ ih => exact .nextLineShow (str h1) ih
  | spacedShow h1 h2 h3 _ _ ih => exact .spacedShow (number_operand h1) (number_operand h2) (str h3) ih
  | form h1 h2 _ h3 _ _ _ _ ihf ih => exact .form h1 h2 h3 ihf ih
  | xobject h1 h2 _ ih => exact .xobject h1 h2 ih
  | image _ ih => exact .operand (fun _ h => by cases h) (quiet "EI" (by decide) ih)
  | numbers as hn _ ha _ ih => exact op as (fun a h => number_operand (ha a h)) (quiet _ (hnum _ hn) ih)
  | bare hn _ ih => exact quiet _ (hbare _ hn) ih
  | dash h1 h2 _ ih => exact .operand h1 (.operand h2 (quiet "d" (by decide) ih))
  | intent h1 _ ih => exact .operand h1 (quiet "ri" (by decide) ih)
  | space hop _ _ ih =>
    refine .operand (name_operand _) ?_
    rcases hop with rfl | rfl
    · exact quiet "CS" (by decide) ih
    · exact quiet "cs" (by decide) ih
  | unknown h1 h2 _ ih =>
    refine .other (fun hm => h1 ?_) h2 ih
    have : ∀ o ∈ Spec.textOperators, o ∈ Spec.knownOperators := by decide +kernel
    exact this _ hm

/-- An operator with its operands that succeeds and completes no forms. -/
theorem runWith_go {E : Env1} {nested : List Obj → St → Gen Item} {as : List Obj} {n : Bytes} {f : Op} {os : List Obj} {s s1 : St}
    (ha : ∀ a ∈ as, Operand a) (hf : dictGet (commands E.R) (methodName n) = some (as.length, f)) (hs : s.done = []) (h1 : f as s = .ok s1)
    (hd : ∀ i ∈ s1.done, NotForm i) (h : ∃ items s', runWith E nested os none { s1 with done := [] } = ((items, none), s')) :
    ∃ items s', runWith E nested (as ++ .kw n :: os) none s = ((items, none), s') := by
  obtain ⟨items, s', h⟩ := h
  have he : exec E.R { s with args := s.args ++ as } (.kw n) = .ok s1 := by
    have := operands_exact E.R s as n f ha hf
    rw [execs_append, execs_operands E.R s as ha] at this
    simp only [execs, h1] at this
    split at this
    · cases this
    · rename_i s2 h2
      cases this
      exact h2
  refine ⟨s1.done ++ items, s', ?_⟩
  rw [runWith_operands ha hs, runWith, he]
  simp only [finish_plain E nested _ _ hd, h]

theorem formBox_ok {R : Resolver} {d : List (Key × Obj)} {raw : Bytes} {res rs : Obj} {m : Mat} (hb : FormBoxes R d) (hr : formResources R d res = .ok rs) :
    ∃ b, formItem R d raw res m = .ok (.xobj (.stream d raw) b rs m []) := by
  obtain ⟨⟨x, y, w, h, he, hx, hy, hw, hh⟩, hm⟩ := hb
  obtain ⟨qx, _, hx⟩ := number_of hx
  obtain ⟨qy, _, hy⟩ := number_of hy
  obtain ⟨qw, _, hw⟩ := number_of hw
  obtain ⟨qh, _, hh⟩ := number_of hh
  have hbb : R.listValue ((dictGet d (nm "BBox")).getD .null) = .ok [x, y, w, h] := by
    cases he with
    | given h1 h2 => simp only [h1, Option.getD_some, Resolver.listValue, h2]
  have hmat : ∃ l ma, formMatrix R d = .ok l ∧ matOf l = .ok ma := by
    rcases hm with hm | ⟨l, he, hl, hn⟩
    · exact ⟨[.int 1, .int 0, .int 0, .int 1, .int 0, .int 0], _, by simp only [formMatrix, hm], by simp only [matOf, Obj.num, Obj.num?, bind, Except.bind]; rfl⟩
    · obtain ⟨ma, h1⟩ := six hl hn
      cases he with
      | given h2 h3 => exact ⟨l, ma, by simp only [formMatrix, h2, Resolver.listValue, h3], h1⟩
  obtain ⟨l, ma, h1, h2⟩ := hmat
  exact ⟨_, by simp only [formItem, hbb, h1, hr, formBbox, hx, hy, hw, hh, h2, bind, Except.bind]; rfl⟩

theorem wellFormed_runs {E : Env1} (hR : ∀ d, E.R.resolve1 (.dict d) = .ok (.dict d)) {ig : Bool} {res : List (Key × Obj)} {pen : Pen} {os : List Obj} {t : PyStr}
    (h : WellFormed E ig res pen os t) :
    ∃ N, ∀ fuel ≥ N, ∀ s, Fit E ig res pen s → ∃ items s', runWith E (fun st s => (run E fuel st s).1) os none s = ((items, none), s') := by
  induction h with
  | done => exact ⟨0, fun fuel _ s _ => ⟨[], s, rfl⟩⟩
  | operand ho _ ih =>
    obtain ⟨N, ih⟩ := ih
    refine ⟨N, fun fuel hN s hs => ?_⟩
    rw [runWith_operand ho hs.agrees.done]
    refine ih fuel hN _ ?_
    have ha := hs.agrees
    exact ⟨⟨ha.font, ha.ignore, ha.saved, ha.savedIgnore, ha.shown, ha.resources, ha.fonts, ha.xobjs, ha.done⟩, hs.text, hs.saved, hs.path, hs.spaces, hs.known, hs.named,
      hs.stroke, hs.fill⟩
  | save _ ih =>
    obtain ⟨N, ih⟩ := ih
    refine ⟨N, fun fuel hN s hs => ?_⟩
    have ha := hs.agrees
    refine runWith_go (as := []) (n := asc "q") (by simp) rfl ha.done rfl (by simp [ha.done]) (ih fuel hN _ ?_)
    refine ⟨⟨ha.font, ha.ignore, ?_, ?_, ha.shown, ha.resources, ha.fonts, ha.xobjs, rfl⟩, hs.text, ?_, hs.path, hs.spaces, hs.known, hs.named, hs.stroke, hs.fill⟩
    · simp only [List.map_cons, ha.saved, ha.font]
    · intro e he
      rcases List.mem_cons.1 he with rfl | he
      · exact ha.ignore
      · exact ha.savedIgnore e he
    · intro e he
      rcases List.mem_cons.1 he with rfl | he
      · exact hs.text
      · exact hs.saved e he
  | restore _ ih =>
    obtain ⟨N, ih⟩ := ih
    refine ⟨N, fun fuel hN s hs => ?_⟩
    have ha := hs.agrees
    have hsv := ha.saved
    have hsi := ha.savedIgnore
    have hst := hs.saved
    cases hg : s.gstack with
    | nil => rw [hg] at hsv; cases hsv
    | cons x rest =>
      obtain ⟨m, tx, g⟩ := x
      rw [hg] at hsv hsi hst
      simp only [List.map_cons, List.cons.injEq] at hsv
      refine runWith_go (as := []) (n := asc "Q") (s1 := { s with tmatrix := m, text := tx, gstack := rest }) (by simp) rfl ha.done
        (by simp only [opRestore, hg]) (by simp [ha.done]) (ih fuel hN _ ?_)
      exact ⟨⟨hsv.1, hsi _ (List.mem_cons_self ..), hsv.2, fun e he => hsi e (List.mem_cons_of_mem _ he), ha.shown, ha.resources, ha.fonts, ha.xobjs, rfl⟩,
        hst _ (List.mem_cons_self ..), fun e he => hst e (List.mem_cons_of_mem _ he), hs.path, hs.spaces, hs.known, hs.named, hs.stroke, hs.fill⟩
  | restoreNone _ ih =>
    obtain ⟨N, ih⟩ := ih
    refine ⟨N, fun fuel hN s hs => ?_⟩
    have hsv := hs.agrees.saved
    cases hg : s.gstack with
    | cons x rest => rw [hg] at hsv; cases hsv
    | nil =>
      exact runWith_go (as := []) (n := asc "Q") (s1 := s) (by simp) rfl hs.agrees.done (by simp only [opRestore, hg]) (by simp [hs.agrees.done])
        (ih fuel hN _ (fit_frame hs rfl hs.text hs.path rfl hs.stroke hs.fill))
  | beginText _ ih =>
    obtain ⟨N, ih⟩ := ih
    refine ⟨N, fun fuel hN s hs => ?_⟩
    have ha := hs.agrees
    have hb := ha.shown
    cases hblk : s.block with
    | some b => rw [hblk] at hb; cases hb
    | none =>
      refine runWith_go (as := []) (n := asc "BT") (s1 := { newLine s (fun t => { t with matrix := Mat.identity }) with block := some {} }) (by simp) rfl ha.done
        (by simp only [opBegin, hblk]) (by simp [newLine, ha.done]) (ih fuel hN _ ?_)
      exact ⟨⟨ha.font, ha.ignore, ha.saved, ha.savedIgnore, by simp [blockText, textItem], ha.resources, ha.fonts, ha.xobjs, rfl⟩,
        ⟨hs.text.fontsize, hs.text.charspace, hs.text.wordspace, hs.text.scaling, hs.text.rise⟩, hs.saved, hs.path, hs.spaces, hs.known, hs.named, hs.stroke, hs.fill⟩
  | endText _ ih | endNone _ ih =>
    obtain ⟨N, ih⟩ := ih
    refine ⟨N, fun fuel hN s hs => ?_⟩
    have ha := hs.agrees
    refine runWith_go (as := []) (n := asc "ET") (by simp) rfl ha.done rfl ?_ (ih fuel hN _ ?_)
    · simp only [ha.done, List.nil_append, List.mem_singleton]
      rintro _ rfl
      split <;> simp [NotForm]
    · exact ⟨⟨ha.font, ha.ignore, ha.saved, ha.savedIgnore, rfl, ha.resources, ha.fonts, ha.xobjs, rfl⟩, hs.text, hs.saved, hs.path, hs.spaces, hs.known, hs.named, hs.stroke, hs.fill⟩
  | @selectFont _ _ _ _ _ n size f _ _ hz hf _ ih =>
    obtain ⟨N, ih⟩ := ih
    refine ⟨N, fun fuel hN s hs => ?_⟩
    have ha := hs.agrees
    refine runWith_go (as := [.name n, size]) (n := asc "Tf") (s1 := { s with text := { s.text with font := some f, fontsize := size } })
      (by simpa using ⟨name_operand n, number_operand hz⟩) rfl ha.done (by simp only [opFont, Obj.key, ha.fonts n f hf]) (by simp [ha.done]) (ih fuel hN _ ?_)
    exact ⟨⟨rfl, ha.ignore, ha.saved, ha.savedIgnore, ha.shown, ha.resources, ha.fonts, ha.xobjs, rfl⟩,
        ⟨hz, hs.text.charspace, hs.text.wordspace, hs.text.scaling, hs.text.rise⟩, hs.saved, hs.path, hs.spaces, hs.known, hs.named, hs.stroke, hs.fill⟩
  | @showString _ _ f _ u str v _ _ hv hc _ ih =>
    obtain ⟨N, ih⟩ := ih
    refine ⟨N, fun fuel hN s hs => ?_⟩
    obtain ⟨s1, h1, h2, h3⟩ := goes_show hs (placedText_array hv) hc
    exact runWith_go (as := [.str str]) (n := asc "Tj") (by simpa using str_operand str) rfl hs.agrees.done h1 h3 (ih fuel hN _ h2)
  | @showArray _ _ f _ u l v _ _ hv hc _ ih =>
    obtain ⟨N, ih⟩ := ih
    refine ⟨N, fun fuel hN s hs => ?_⟩
    obtain ⟨s1, h1, h2, h3⟩ := goes_show hs hv hc
    refine runWith_go (as := [.arr l]) (n := asc "TJ") (by simpa using arr_operand l) rfl hs.agrees.done ?_ h3 (ih fuel hN _ h2)
    have hf := hs.agrees.font
    have hb := hs.agrees.shown
    cases hblk : s.block with
    | none => rw [hblk] at hb; cases hb
    | some b => simp only [opShowArray, elements, hf, hblk, h1]
  | @nextLineShow _ _ f _ u str v _ _ hv hc _ ih =>
    obtain ⟨N, ih⟩ := ih
    refine ⟨N, fun fuel hN s hs => ?_⟩
    have ha := hs.agrees
    obtain ⟨s1, h1, h2, h3⟩ := goes_show (s := nextLine s)
      ⟨⟨ha.font, ha.ignore, ha.saved, ha.savedIgnore, ha.shown, ha.resources, ha.fonts, ha.xobjs, ha.done⟩,
        ⟨hs.text.fontsize, hs.text.charspace, hs.text.wordspace, hs.text.scaling, hs.text.rise⟩, hs.saved, hs.path, hs.spaces, hs.known, hs.named, hs.stroke, hs.fill⟩
      (placedText_array hv) hc
    exact runWith_go (as := [.str str]) (n := asc "'") (by simpa using str_operand str) rfl hs.agrees.done h1 h3 (ih fuel hN _ h2)
  | @spacedShow _ _ f _ u str v w c _ _ hw hcs hv hc _ ih =>
    obtain ⟨N, ih⟩ := ih
    refine ⟨N, fun fuel hN s hs => ?_⟩
    have ha := hs.agrees
    obtain ⟨s1, h1, h2, h3⟩ := goes_show (s := { s with text := { s.text with wordspace := w, charspace := c } })
      ⟨⟨ha.font, ha.ignore, ha.saved, ha.savedIgnore, ha.shown, ha.resources, ha.fonts, ha.xobjs, ha.done⟩,
        ⟨hs.text.fontsize, hcs, hw, hs.text.scaling, hs.text.rise⟩, hs.saved, hs.path, hs.spaces, hs.known, hs.named, hs.stroke, hs.fill⟩
      (placedText_array hv) hc
    exact runWith_go (as := [w, c, .str str]) (n := asc "\"") (by simpa using ⟨number_operand hw, number_operand hcs, str_operand str⟩) rfl hs.agrees.done h1 h3
      (ih fuel hN _ h2)
  | @form _ res _ n d raw res' v _ _ hx hform hbox hres hus hcont _ _ ihf ih =>
    obtain ⟨N1, ihf⟩ := ihf
    obtain ⟨N2, ih⟩ := ih
    refine ⟨max (N1 + 1) N2, fun fuel hN s hs => ?_⟩
    have ha := hs.agrees
    obtain ⟨r, hr1, hr2⟩ := ha.xobjs n _ hx
    have hrs : formResources E.R d s.resources = .ok (.dict res') := by
      rw [ha.resources]
      simp only [formResources]
      cases hres with
      | own h1 h2 h3 => simp only [h1, h2, if_true, Resolver.dictValue, h3]
      | inherited h1 => simp only [h1, formResources.copyOf]
    obtain ⟨b, hi⟩ := formBox_ok (raw := raw) (m := s.tmatrix) hbox hrs
    obtain ⟨s0, hp, hfit⟩ := fit_start (hR res') hus s.tmatrix false (some s.graphics) (by rintro x ⟨⟩; exact ⟨hs.stroke, hs.fill⟩)
    obtain ⟨fuel, rfl⟩ : ∃ k, fuel = k + 1 := ⟨fuel - 1, by omega⟩
    obtain ⟨its, s2, hits⟩ := ihf fuel (by omega) _ hfit
    obtain ⟨items, s', hrest⟩ := ih (fuel + 1) (by omega) _ (fit_frame hs rfl hs.text hs.path rfl hs.stroke hs.fill)
    have hn : (run E (fuel + 1) [.stream d raw] { s0 with graphics := s.graphics }).1 = (its, none) := by
      simp only [run, hcont]
      simp only [Option.getD_some] at hits
      rw [hits]
    unfold IsForm at hform
    refine ⟨.xobj (.stream d raw) b (.dict res') s.tmatrix its :: items, s', ?_⟩
    show runWith E _ ([.name n] ++ .kw (asc "Do") :: _) none s = _
    rw [runWith_operands (by simpa using name_operand n) ha.done]
    have he : exec E.R { s with args := s.args ++ [.name n] } (.kw (asc "Do")) = .ok { s with done := [.xobj (.stream d raw) b (.dict res') s.tmatrix []] } := by
      have hexact := operands_exact E.R s [.name n] (asc "Do") (opXObject E.R) (by simpa using name_operand n) rfl
      rw [execs_append, execs_operands E.R s _ (by simpa using name_operand n)] at hexact
      have ho : opXObject E.R [.name n] s = .ok { s with done := [.xobj (.stream d raw) b (.dict res') s.tmatrix []] } := by
        simp only [opXObject, Obj.key, hr1, Resolver.streamValue, hr2]
        rw [if_pos hform]
        simp only [hi, ha.done, List.nil_append]
      rw [ho] at hexact
      simp only [execs] at hexact
      split at hexact
      · cases hexact
      · rename_i s3 h3
        rw [h3, hexact]
    rw [runWith, he]
    simp only [finish, hp, hn, List.nil_append]
    rw [hrest]
    rfl
  | @xobject _ _ _ n d raw _ _ hx hform _ ih =>
    obtain ⟨N, ih⟩ := ih
    refine ⟨N, fun fuel hN s hs => ?_⟩
    have ha := hs.agrees
    obtain ⟨r, hr1, hr2⟩ := ha.xobjs n _ hx
    unfold IsForm at hform
    have ho : ∃ l, opXObject E.R [.name n] s = .ok { s with done := l } ∧ ∀ i ∈ l, NotForm i := by
      simp only [opXObject, Obj.key, hr1, Resolver.streamValue, hr2]
      rw [if_neg hform]
      split
      · exact ⟨_, rfl, by simp [ha.done, NotForm]⟩
      · exact ⟨s.done, rfl, by simp [ha.done]⟩
    obtain ⟨l, ho, hl⟩ := ho
    exact runWith_go (as := [.name n]) (n := asc "Do") (by simpa using name_operand n) rfl ha.done ho hl
      (ih fuel hN _ (fit_frame (s' := { s with done := l }) hs rfl hs.text hs.path rfl hs.stroke hs.fill))
  | @image _ _ _ d raw _ _ _ ih =>
    obtain ⟨N, ih⟩ := ih
    refine ⟨N, fun fuel hN s hs => ?_⟩
    have ha := hs.agrees
    have ho : ∃ l, opImage [.stream d raw] s = .ok { s with done := l } ∧ ∀ i ∈ l, NotForm i := by
      simp only [opImage]
      split
      · exact ⟨_, rfl, by simp [ha.done, NotForm]⟩
      · exact ⟨s.done, rfl, by simp [ha.done]⟩
    obtain ⟨l, ho, hl⟩ := ho
    exact runWith_go (as := [.stream d raw]) (n := asc "EI") (by intro a h n e; simp only [List.mem_singleton] at h; subst h; cases e) rfl ha.done ho hl
      (ih fuel hN _ (fit_frame (s' := { s with done := l }) hs rfl hs.text hs.path rfl hs.stroke hs.fill))
  | @numbers _ _ _ n k _ _ as hn hl has _ ih =>
    obtain ⟨N, ih⟩ := ih
    refine ⟨N, fun fuel hN s hs => ?_⟩
    obtain ⟨f, hf, s1, h1, h2, h3⟩ := goes_numbers hs hn hl has
    exact runWith_go (as := as) (n := asc n) (fun a h => number_operand (has a h)) hf hs.agrees.done h1 h3 (ih fuel hN _ h2)
  | @bare _ _ _ n _ _ hn _ ih =>
    obtain ⟨N, ih⟩ := ih
    refine ⟨N, fun fuel hN s hs => ?_⟩
    obtain ⟨f, hf, s1, h1, h2, h3⟩ := goes_bare hs hn
    exact runWith_go (as := []) (n := asc n) (by simp) hf hs.agrees.done h1 h3 (ih fuel hN _ h2)
  | @dash _ _ _ a b _ _ h1 h2 _ ih =>
    obtain ⟨N, ih⟩ := ih
    refine ⟨N, fun fuel hN s hs => ?_⟩
    exact runWith_go (as := [a, b]) (n := asc "d") (s1 := { s with graphics := { s.graphics with dash := some (a, b) } }) (by simpa using ⟨h1, h2⟩) rfl hs.agrees.done rfl
      (by simp [hs.agrees.done]) (ih fuel hN _ (fit_frame hs rfl hs.text hs.path rfl hs.stroke hs.fill))
  | @intent _ _ _ a _ _ h1 _ ih =>
    obtain ⟨N, ih⟩ := ih
    refine ⟨N, fun fuel hN s hs => ?_⟩
    exact runWith_go (as := [a]) (n := asc "ri") (s1 := { s with graphics := { s.graphics with intent := a } }) (by simpa using h1) rfl hs.agrees.done rfl
      (by simp [hs.agrees.done]) (ih fuel hN _ (fit_frame hs rfl hs.text hs.path rfl hs.stroke hs.fill))
  | @space _ _ _ n op _ _ hop hn _ ih =>
    obtain ⟨N, ih⟩ := ih
    refine ⟨N, fun fuel hN s hs => ?_⟩
    have hc : ∃ c, dictGet s.csmap (.name n) = some c ∧ SpaceReady c := by
      have : (dictGet s.csmap (.name n)).isSome := by
        rcases hn with hn | ⟨o, hn⟩
        · exact hs.known n hn
        · exact hs.named n o hn
      obtain ⟨c, hc⟩ := Option.isSome_iff_exists.1 this
      exact ⟨c, hc, hs.spaces _ _ hc⟩
    obtain ⟨c, hc, hr⟩ := hc
    rcases hop with rfl | rfl
    · exact runWith_go (as := [.name n]) (n := asc "CS") (s1 := { s with graphics := { s.graphics with scolspace := c } }) (by simpa using name_operand n) rfl hs.agrees.done
        (by simp only [opSpace, Obj.key, hc]) (by simp [hs.agrees.done]) (ih fuel hN _ (fit_frame hs rfl hs.text hs.path rfl hr hs.fill))
    · exact runWith_go (as := [.name n]) (n := asc "cs") (s1 := { s with graphics := { s.graphics with ncolspace := c } }) (by simpa using name_operand n) rfl hs.agrees.done
        (by simp only [opSpace, Obj.key, hc]) (by simp [hs.agrees.done]) (ih fuel hN _ (fit_frame hs rfl hs.text hs.path rfl hs.stroke hr))
  | @unknown _ _ _ n _ _ h1 h2 _ ih =>
    obtain ⟨N, ih⟩ := ih
    refine ⟨N, fun fuel hN s hs => ?_⟩
    obtain ⟨items, s', h⟩ := ih fuel hN _ (fit_frame hs rfl hs.text hs.path rfl hs.stroke hs.fill)
    refine ⟨items, s', ?_⟩
    simp only [runWith, exec, unknown_command E.R h1 h2, hs.agrees.done, finish, List.nil_append]
    exact h

/-- **C89.** A page with usable resources and well-formed content is interpreted to the end without an exception, whatever the matrix of the page,
and shows exactly its text. -/
theorem well_formed_page (E : Env1) (hR : ∀ d, E.R.resolve1 (.dict d) = .ok (.dict d)) (res : List (Key × Obj)) (hres : UsableResources E res) (ignoreBad : Bool)
    (streams : List Obj) (hc : (E.content streams).2 = none) (t : PyStr) (h : WellFormed E ignoreBad res Pen.start (E.content streams).1 t) :
    ∃ N, ∀ fuel ≥ N, ∀ ctm, ∃ s items s', prepState E ctm (.dict res) ignoreBad = .ok s ∧ run E fuel streams s = ((items, none), s') ∧
      ∀ num w h, Spec.PageShows ⟨num, w, h, items⟩ t := by
  obtain ⟨N, hN⟩ := wellFormed_runs hR h
  refine ⟨N + 1, fun fuel hf ctm => ?_⟩
  obtain ⟨fuel, rfl⟩ : ∃ k, fuel = k + 1 := ⟨fuel - 1, by omega⟩
  obtain ⟨s, hs, hfit⟩ := fit_start (hR res) hres ctm ignoreBad none (by rintro x ⟨⟩)
  obtain ⟨items, s', hr⟩ := hN fuel (by omega) _ hfit
  have hrun : run E (fuel + 1) streams s = ((items, none), s') := by
    simp only [run, hc]
    exact hr
  exact ⟨s, items, s', hs, hrun, fun num w ht => text_extracted E ctm (.dict res) ignoreBad streams t (wellFormed_shows h) (fuel + 1) s s' items hs hrun num w ht⟩

/-! ### An example -/

/-- The resources of the example. -/
def extractDict : List (Key × Obj) :=
  [(nm "Font", .dict [(nm "F1", .dict [])]), (nm "XObject", .dict [(nm "X1",
    .stream [(nm "Subtype", .name (asc "Form")), (nm "BBox", .arr [.int 0, .int 0, .int 1, .int 3])] [1])])]

theorem extract_usable : UsableResources (extractEnv "xy") extractDict := by
  refine ⟨by decide, ?_, ?_, ?_, ?_⟩
  · intro o h
    have : dictGet extractDict (nm "Font") = some (.dict [(nm "F1", .dict [])]) := rfl
    rw [this] at h
    cases h
    refine ⟨_, rfl, ?_⟩
    simp only [List.mem_singleton, forall_eq]
    exact ⟨[], gapFont, rfl, rfl⟩
  · intro o h
    have : dictGet extractDict (nm "ColorSpace") = none := rfl
    rw [this] at h
    cases h
  · intro o h
    have : dictGet extractDict (nm "ProcSet") = none := rfl
    rw [this] at h
    cases h
  · intro o h
    exact ⟨o, rfl⟩

theorem gap_placed (ig : Bool) (s : Bytes) (h : 66 ∉ s) : PlacedText gapFont ig s (s.map fun c => c.toNat) := by
  obtain ⟨codes, ts, h1, h2, h3⟩ := gap_shows ig s h
  exact ⟨codes, ts, h1, h2, h3, fun c _ => ⟨⟨_, rfl⟩, (fun h => by cases h), fun _ => ⟨⟨_, rfl⟩, ⟨_, rfl⟩⟩⟩⟩

/-- The hypotheses of `well_formed_page` can be met: by a page with a form, a line, numbers between strings and an unknown operator. -/
theorem extract_wellFormed : WellFormed (extractEnv "xy") false extractDict Pen.start ((extractEnv "xy").content []).1 (pstr "AxyCDE") := by
  have hF : FontNamed (extractEnv "xy") (.dict extractDict) (asc "F1") gapFont := extract_font "xy"
  have hA := gap_placed false (asc "A") (by decide)
  have hxy := gap_placed false (asc "xy") (by decide)
  have hCD := gap_placed false (asc "CD") (by decide)
  have hE := gap_placed false (asc "E") (by decide)
  have one : ∀ s : Bytes, ∀ c r, s = c :: r → HasCharacter gapFont [.str s] := by rintro s c r rfl; exact ⟨c :: r, _, _, by simp, rfl⟩
  show WellFormed _ _ _ _ extractPage ((asc "A").map (fun c => c.toNat) ++ ((asc "xy").map (fun c => c.toNat) ++
    (((asc "CD").map (fun c => c.toNat) ++ ((asc "E").map (fun c => c.toNat) ++ [])) ++ [])))
  refine .selectFont (int_number _) hF (.beginText (.numbers (n := "Tc") (k := 1) [.int 2] (by decide) rfl (by simpa using int_number 2)
    (.showString hA (one _ _ _ rfl) (.save (.endText ?_)))))
  refine .numbers (n := "m") (k := 2) [.int 0, .int 0] (by decide) rfl (by simpa using int_number 0) ?_
  refine .numbers (n := "l") (k := 2) [.int 1, .int 3] (by decide) rfl (by simpa using ⟨int_number 1, int_number 3⟩) (.bare (n := "S") (by decide) ?_)
  refine .form (d := [(nm "Subtype", .name (asc "Form")), (nm "BBox", .arr [.int 0, .int 0, .int 1, .int 3])]) (raw := [1])
    ⟨_, ⟨_, _, rfl, by decide, .given rfl rfl, by decide, rfl⟩, rfl⟩ ⟨rfl, rfl⟩
    ⟨⟨_, _, _, _, .given rfl rfl, int_number _, int_number _, int_number _, int_number _⟩, .inl rfl⟩ (.inherited rfl) extract_usable rfl ?_ ?_
  · show WellFormed _ _ _ _ (extractForm "xy") ([] ++ (asc "xy").map (fun c => c.toNat) ++ [])
    exact .selectFont (int_number _) hF (.beginText (.nextLineShow hxy (one _ _ _ rfl) (.endText .done)))
  · exact .restore (.beginText (.unknown (n := asc "foo") (by decide) (by decide)
      (.showArray (.string hCD (.number rfl (.string hE .nil))) ⟨asc "CD", _, _, by simp, rfl⟩ (.endText .done))))

end Pdf

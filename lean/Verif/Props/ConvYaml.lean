import Verif.Spec.ConvYaml
import Verif.Props.Yaml
import Verif.Props.ConvJson
/-! The YAML converter (converters/yaml.py). -/

namespace Pdf

open Spec (Yaml Plain YamlKey Flow FlowItems FlowMembers FlowSeq FlowPlain YamlText YPlace YamlScalar WritesMembers WritesItems asMap asSeq cp yamlChar
  textYaml boxYaml boxYamlOpt colorYaml BlockYaml pathYaml ItemYaml PageYaml YamlTexts YamlCharBlock YamlItem)

instance (k : PyStr) : Decidable (YamlKey k) := inferInstanceAs (Decidable (_ ∧ _))

/-! ### Words -/

/-- The characters of words. -/
def wordStr : PyStr := cp "ABCDEFGHIJKLMNOPQRSTUVWXYZabcdefghijklmnopqrstuvwxyz0123456789_"

theorem wordStr_char : ∀ c ∈ wordStr ++ cp "-", (0x2d ≤ c ∧ c ≤ 0x7a) ∧ c ≠ 0x3a := by decide

theorem wordStr_first : ∀ c ∈ wordStr, c ≠ ' '.toNat ∧ c ∉ Spec.yamlIndicators ∧ c ∉ cp "-?:" := by decide

theorem plain_word {c : Nat} {r : PyStr} (hc : c ∈ wordStr) (hr : ∀ x ∈ r, x ∈ wordStr ++ cp "-") : Plain (c :: r) := by
  have hall : ∀ x ∈ c :: r, (0x2d ≤ x ∧ x ≤ 0x7a) ∧ x ≠ 0x3a := by
    intro x hx
    rcases List.mem_cons.1 hx with rfl | hx
    · exact wordStr_char x (List.mem_append_left _ hc)
    · exact wordStr_char x (hr x hx)
  obtain ⟨f1, f2, f3⟩ := wordStr_first c hc
  refine ⟨?_, ⟨c, r, rfl, f1, f2, fun h => absurd h f3⟩, ⟨?_, ?_⟩, ?_, ?_⟩
  · intro x hx
    have := hall x hx
    exact yamlChar_of ⟨by omega, by omega⟩
  · intro h
    have := hall _ (List.mem_of_getLast? h)
    simp at this
  · intro h
    have := hall _ (List.mem_of_getLast? h)
    simp at this
  · intro h
    have := hall 0x3a (h.subset (by decide))
    simp at this
  · intro h
    have := hall 0x20 (h.subset (by decide))
    simp at this

theorem plain_lit {s : PyStr} (h : ∃ c r, s = c :: r ∧ c ∈ wordStr ∧ ∀ x ∈ r, x ∈ wordStr ++ cp "-") : Plain s := by
  obtain ⟨c, r, rfl, hc, hr⟩ := h
  exact plain_word hc hr

theorem plain_numText (n : Nat) : Plain (numText n) := by
  obtain ⟨d1, d2, _⟩ := decimal_facts n
  unfold numText
  have dig : ∀ x : Nat, 48 ≤ x ∧ x ≤ 57 → x ∈ wordStr := by
    intro x hx
    have : ∀ k : Fin 10, 48 + k.val ∈ wordStr := by decide
    have := this ⟨x - 48, by omega⟩
    rwa [show 48 + (x - 48) = x by omega] at this
  cases hd : decimal n with
  | nil => exact absurd hd d1
  | cons a b =>
    rw [hd] at d2
    refine plain_word (dig _ (d2 a (by simp))) ?_
    intro x hx
    obtain ⟨y, hy, rfl⟩ := List.mem_map.1 hx
    exact List.mem_append_left _ (dig _ (d2 y (by simp [hy])))

/-! ### Calls given as lists -/

/-- What one call with a key stands for. -/
inductive CallWrites : YCall → Yaml → Prop
  | scalar {t v} : YamlScalar t v → CallWrites (.scalar t) v
  | object {b ms} : WritesMembers .object [] b ms → CallWrites (.object b) (asMap ms)
  | array {b vs} : WritesItems b vs → CallWrites (.array b) (asSeq vs)

/-- The relation between a call with a key and a member. -/
def MemberYaml (a : PyStr × YCall) (b : PyStr × Yaml) : Prop := a.1 = b.1 ∧ YamlKey a.1 ∧ CallWrites a.2 b.2

theorem writesMembers_ofList {p : YPlace} {l : List (PyStr × YCall)} {ms : List (PyStr × Yaml)} (h : List.Forall₂ MemberYaml l ms)
    (nd : (l.map Prod.fst).Nodup) (seen : List PyStr) (dis : ∀ k ∈ l.map Prod.fst, k ∉ seen)
    (hp : seen = [] → p = .root ∨ ∀ a r, l = a :: r → ∃ t, a.2 = .scalar t) : WritesMembers p seen (YObj.ofList l) ms := by
  induction h generalizing seen with
  | nil => exact .nil
  | cons h _ ih =>
    rename_i a b l ms _
    obtain ⟨k, c⟩ := a
    obtain ⟨k', v⟩ := b
    obtain ⟨rfl, hk, hc⟩ := h
    dsimp only at hk hc
    rw [List.map_cons, List.nodup_cons] at nd
    have hrest : WritesMembers p (k :: seen) (YObj.ofList l) ms := by
      refine ih nd.2 _ ?_ (by simp)
      intro x hx hx'
      rcases List.mem_cons.1 hx' with rfl | hx'
      · exact nd.1 hx
      · exact dis x (by rw [List.map_cons]; exact List.mem_cons_of_mem _ hx) hx'
    have hnew : k ∉ seen := dis _ (by simp)
    have place : (∀ t, c ≠ .scalar t) → seen = [] → p = .root := by
      intro hs he
      rcases hp he with h | h
      · exact h
      · obtain ⟨t, ht⟩ := h _ _ rfl
        exact absurd ht (hs t)
    cases hc with
    | scalar hv => exact .scalar hnew hk hv hrest
    | object hb => exact .object hnew hk (fun he => by rw [place (by simp) he]; simp) hb hrest
    | array hb => exact .array hnew hk (fun he => by rw [place (by simp) he]; simp) hb hrest

theorem writesItems_ofList {l : List YObj} {vs : List (List (PyStr × Yaml))} (h : List.Forall₂ (WritesMembers .array []) l vs) :
    WritesItems (YArr.ofList l) (vs.map asMap) := by
  induction h with
  | nil => exact .nil
  | cons h _ ih => exact .object h ih

theorem memberYaml_append {a b : List (PyStr × YCall)} {c d : List (PyStr × Yaml)} (h : List.Forall₂ MemberYaml a c)
    (h' : List.Forall₂ MemberYaml b d) : List.Forall₂ MemberYaml (a ++ b) (c ++ d) := by
  induction h with
  | nil => exact h'
  | cons h1 _ ih => exact .cons h1 ih

theorem memberYaml_keys {l : List (PyStr × YCall)} {ms : List (PyStr × Yaml)} (h : List.Forall₂ MemberYaml l ms) :
    l.map Prod.fst = ms.map Prod.fst := by
  induction h with
  | nil => rfl
  | cons h _ ih => rw [List.map_cons, List.map_cons, ih, h.1]

/-! ### Values on one line -/

theorem pyList_items {l : List PyStr} {vs : List Yaml} (h : List.Forall₂ Flow l vs) : FlowSeq (pyList l) (.seq vs) := by
  refine ⟨?_, vs, rfl⟩
  cases h with
  | nil => exact .emptySeq
  | cons h1 h2 =>
    rename_i t v l vs
    have key : ∀ t v, Flow t v → FlowItems (t ++ (l.flatMap fun t => pstr ", " ++ t)) (v :: vs) := by
      clear h1
      induction h2 with
      | nil => intro t v h; simpa using FlowItems.one h
      | cons h _ ih =>
        intro t v h'
        have := FlowItems.more h' (ih _ _ h)
        simpa [List.flatMap_cons, cp, pstr, List.append_assoc] using this
    have := Flow.seq (key t v h1)
    simpa only [pyList, cp, pstr, List.append_assoc] using this

theorem values_flow {env : YamlEnv} (l : List Obj) (hv : ∀ v ∈ l, Spec.SingleQuoted (env.valueText v)) :
    FlowSeq (pyList (l.map fun v => pyRepr (env.valueText v))) (.seq (l.map fun v => .scalar (env.valueText v))) := by
  refine pyList_items ?_
  induction l with
  | nil => exact .nil
  | cons v l ih => exact .cons (.quoted (hv v (by simp))) (ih fun v h => hv v (by simp [h]))

theorem flowPlain_coord {env : YamlEnv} (henv : YamlTexts env) (q : Option ℚ) : FlowPlain (yCoord env q) ∧ yCoord env q = Spec.coordinate env.toConvEnv q := by
  cases q with
  | none =>
    refine ⟨⟨(by decide : pstr "None" ≠ []), ?_⟩, rfl⟩
    intro c hc
    exact ⟨yamlChar_of ((by decide : ∀ c ∈ pstr "None", 0x20 ≤ c ∧ c ≤ 0x7e) c hc),
      (by decide : ∀ c ∈ pstr "None", c ∉ cp " ,[]{}:#&*!|>'\"%@`?") c hc⟩
  | some q => exact ⟨(henv.number q).2, rfl⟩

theorem points_flow {env : YamlEnv} (henv : YamlTexts env) (l : List (Option ℚ × Option ℚ)) :
    FlowSeq (yPoints env l) (.seq (l.map fun q => .map [(pstr "x", .scalar (Spec.coordinate env.toConvEnv q.1)), (pstr "y", .scalar (Spec.coordinate env.toConvEnv q.2))])) := by
  refine pyList_items ?_
  have kx : Spec.SingleQuoted (pstr "x") := fun c hc =>
    ⟨yamlChar_of ((by decide : ∀ c ∈ pstr "x", 0x20 ≤ c ∧ c ≤ 0x7e) c hc), (by decide : ∀ c ∈ pstr "x", c ≠ '\''.toNat) c hc⟩
  have ky : Spec.SingleQuoted (pstr "y") := fun c hc =>
    ⟨yamlChar_of ((by decide : ∀ c ∈ pstr "y", 0x20 ≤ c ∧ c ≤ 0x7e) c hc), (by decide : ∀ c ∈ pstr "y", c ≠ '\''.toNat) c hc⟩
  induction l with
  | nil => exact .nil
  | cons q l ih =>
    refine .cons ?_ ih
    obtain ⟨x1, x2⟩ := flowPlain_coord henv q.1
    obtain ⟨y1, y2⟩ := flowPlain_coord henv q.2
    dsimp only
    rw [← x2, ← y2]
    have := Flow.map (.more kx (.plain x1) (.one ky (.plain y1)))
    simpa [cp, pstr, List.append_assoc] using this

/-! ### Items -/

theorem box_yaml {env : YamlEnv} (henv : YamlTexts env) (b : Bbox) : List.Forall₂ MemberYaml (yBox env b) (boxYaml env b) :=
  .cons ⟨rfl, (by dsimp only; decide), .scalar (.plain (henv.number _).1)⟩ (.cons ⟨rfl, (by dsimp only; decide), .scalar (.plain (henv.number _).1)⟩
    (.cons ⟨rfl, (by dsimp only; decide), .scalar (.plain (henv.number _).1)⟩ (.cons ⟨rfl, (by dsimp only; decide), .scalar (.plain (henv.number _).1)⟩ .nil)))

theorem plain_None : Plain (pstr "None") := plain_lit ⟨_, _, rfl, by decide, by decide⟩

theorem boxOpt_yaml {env : YamlEnv} (henv : YamlTexts env) (b : Option Bbox) : List.Forall₂ MemberYaml (yBoxOpt env b) (boxYamlOpt env b) := by
  cases b with
  | some b => exact box_yaml henv b
  | none => exact .cons ⟨rfl, (by dsimp only; decide), .scalar (.plain plain_None)⟩ (.cons ⟨rfl, (by dsimp only; decide), .scalar (.plain plain_None)⟩
      (.cons ⟨rfl, (by dsimp only; decide), .scalar (.plain plain_None)⟩ (.cons ⟨rfl, (by dsimp only; decide), .scalar (.plain plain_None)⟩ .nil)))

theorem color_yaml {env : YamlEnv} (key : PyStr) (hk : YamlKey key) (c : Color) (hc : Spec.YamlColor env c) :
    List.Forall₂ MemberYaml (yColor env key c) (colorYaml env key c) := by
  unfold yColor colorYaml
  cases hcs : c.space with
  | none => exact .nil
  | some cs =>
    have w : WritesMembers .object [] (YObj.ofList [(pstr "type", .scalar (env.colorName cs)),
        (pstr "value", .scalar (pyList (c.values.map fun v => pyRepr (env.valueText v))))])
        [(pstr "type", .scalar (env.colorName cs)), (pstr "value", .seq (c.values.map fun v => .scalar (env.valueText v)))] := by
      refine writesMembers_ofList (.cons ⟨rfl, (by dsimp only; decide), .scalar (.plain (hc _ hcs).1)⟩
        (.cons ⟨rfl, (by dsimp only; decide), .scalar (.flow (values_flow _ (hc _ hcs).2))⟩ .nil)) ?_ [] (by simp) ?_
      · show [pstr "type", pstr "value"].Nodup
        decide
      rintro _
      refine .inr ?_
      rintro a r ⟨⟩
      exact ⟨_, rfl⟩
    exact .cons ⟨rfl, hk, .object w⟩ .nil

theorem colorYaml_keys (env : YamlEnv) (key : PyStr) (c : Color) :
    (colorYaml env key c).map Prod.fst = [] ∨ (colorYaml env key c).map Prod.fst = [key] := by
  unfold colorYaml
  cases c.space with
  | none => exact .inl rfl
  | some cs => exact .inr rfl

open Classical in
theorem block_yaml {env : YamlEnv} (henv : YamlTexts env) (b : CharBlock) (hb : YamlCharBlock env b) :
    ∃ ms, WritesMembers .array [] (YObj.ofList (yCharBlock env b)) ms ∧ BlockYaml env b (asMap ms) := by
  generalize hd : ((env.descriptor b.font).filter fun p => keepKey p.1) = ds
  have hd' : ((env.descriptor b.font).filter fun p => decide (¬ Spec.leftOut p.1)) = ds := by
    rw [← hd]
    refine List.filter_congr ?_
    intro p _
    by_cases h : keepKey p.1 = true
    · rw [h]; exact decide_eq_true ((keepKey_iff _).1 h)
    · rw [Bool.not_eq_true] at h
      rw [h]
      exact decide_eq_false (fun hn => by rw [(keepKey_iff _).2 hn] at h; cases h)
  have hsub : ∀ p ∈ ds, p ∈ env.descriptor b.font ∧ ¬ Spec.leftOut p.1 := by
    intro p hp; rw [← hd'] at hp; simpa using hp
  have hnd : (ds.map Prod.fst).Nodup := by
    rw [← hd]
    exact List.Nodup.sublist (List.Sublist.map _ List.filter_sublist) hb.keys
  have hvs : ∃ dm, List.Forall₂ (fun (p : PyStr × PyStr) (m : PyStr × Yaml) => m.1 = p.1 ∧ YamlScalar p.2 m.2) ds dm ∧
      List.Forall₂ MemberYaml (ds.map fun p => (p.1, YCall.scalar p.2)) dm := by
    clear hd hd' hnd
    induction ds with
    | nil => exact ⟨[], .nil, .nil⟩
    | cons p ds ih =>
      obtain ⟨dm, h1, h2⟩ := ih (fun q hq => hsub q (List.mem_cons_of_mem _ hq))
      obtain ⟨hk, v, hv⟩ := hb.values p (hsub p (by simp)).1 (hsub p (by simp)).2
      exact ⟨(p.1, v) :: dm, .cons ⟨rfl, hv⟩ h1, .cons ⟨rfl, hk, .scalar hv⟩ h2⟩
  obtain ⟨dm, h1, h2⟩ := hvs
  have htext : b.text = (b.chars.map Prod.fst).flatten := flatMap_flatten _ _
  have hts : YamlScalar b.text (textYaml (b.chars.map Prod.fst).flatten) := by
    rw [htext]
    unfold textYaml
    rcases hb.text with h | h
    · rw [if_pos h, h]; exact .empty
    · rw [if_neg (plain_ne h)]; exact .plain h
  have ok : List.Forall₂ MemberYaml (yCharBlock env b) ((pstr "size", .scalar (env.fmt b.size)) :: boxYaml env b.bbox ++
      colorYaml env (pstr "color") b.color ++ dm ++ [(pstr "text", textYaml (b.chars.map Prod.fst).flatten)]) := by
    unfold yCharBlock
    rw [hd]
    refine memberYaml_append (memberYaml_append (memberYaml_append ?_ (color_yaml _ (by decide) _ hb.color)) h2)
      (.cons ⟨rfl, (by dsimp only; decide), .scalar hts⟩ .nil)
    exact .cons ⟨rfl, (by dsimp only; decide), .scalar (.plain (henv.number _).1)⟩ (box_yaml henv _)
  have hdk : dm.map Prod.fst = ds.map Prod.fst := by
    have := memberYaml_keys h2
    rw [← this, List.map_map]; rfl
  have hres : ∀ k ∈ ds.map Prod.fst, k ∉ Spec.reserved := by
    intro k hk
    obtain ⟨p, hp, rfl⟩ := List.mem_map.1 hk
    exact hb.fresh p (hsub p hp).1
  refine ⟨_, writesMembers_ofList ok ?_ [] (by simp) ?_, ?_⟩
  · rw [memberYaml_keys ok, List.map_append, List.map_append, List.map_append, hdk]
    have hfix : ∀ c : List PyStr, (c = [] ∨ c = [pstr "color"]) →
        ([pstr "size", pstr "x0", pstr "x1", pstr "y0", pstr "y1"] ++ c).Nodup ∧
        ([pstr "size", pstr "x0", pstr "x1", pstr "y0", pstr "y1"] ++ c ⊆ Spec.reserved) ∧
        pstr "text" ∉ [pstr "size", pstr "x0", pstr "x1", pstr "y0", pstr "y1"] ++ c := by
      rintro c (rfl | rfl) <;> decide
    obtain ⟨f1, f2, f3⟩ := hfix _ (colorYaml_keys env _ b.color)
    show ([pstr "size", pstr "x0", pstr "x1", pstr "y0", pstr "y1"] ++ (colorYaml env (pstr "color") b.color).map Prod.fst ++ ds.map Prod.fst ++
      [pstr "text"]).Nodup
    rw [List.nodup_append, List.nodup_append]
    refine ⟨⟨f1, hnd, ?_⟩, by simp, ?_⟩
    · rintro a ha b' hb' rfl
      exact hres a hb' (f2 ha)
    · intro a ha b' hb' e
      rw [List.mem_singleton.1 hb'] at e
      subst e
      rcases List.mem_append.1 ha with h | h
      · exact f3 h
      · exact hres _ h (by decide)
  · intro _
    refine .inr ?_
    intro a r e
    unfold yCharBlock at e
    simp only [List.cons_append, List.nil_append, List.append_assoc, List.cons.injEq] at e
    exact ⟨_, by rw [← e.1]⟩
  · refine BlockYaml.mk ?_
    rw [hd']
    exact h1

theorem blocks_yaml {env : YamlEnv} (henv : YamlTexts env) (l : List CharBlock) (h : ∀ cb ∈ l, YamlCharBlock env cb) :
    ∃ vs, WritesItems (YArr.ofList (l.map fun cb => YObj.ofList (yCharBlock env cb))) vs ∧ List.Forall₂ (BlockYaml env) l vs := by
  induction l with
  | nil => exact ⟨[], .nil, .nil⟩
  | cons cb l ih =>
    obtain ⟨ms, h1, h2⟩ := block_yaml henv cb (h cb (by simp))
    obtain ⟨vs, i1, i2⟩ := ih (fun cb hcb => h cb (by simp [hcb]))
    exact ⟨asMap ms :: vs, .object h1 i1, .cons h2 i2⟩

theorem method_name (m : CurveMethod) : curveMethodName m = pstr (Spec.methodText m) ∧ Plain (curveMethodName m) := by
  cases m <;> exact ⟨rfl, plain_lit ⟨_, _, rfl, by decide, by decide⟩⟩

theorem paths_yaml {env : YamlEnv} (henv : YamlTexts env) (l : List CurvePath) :
    WritesItems (YArr.ofList (l.map fun p => YObj.ofList [(pstr "type", .scalar (curveMethodName p.method)), (pstr "points", .scalar (yPoints env p.points))]))
      (l.map (pathYaml env)) := by
  induction l with
  | nil => exact .nil
  | cons p l ih =>
    obtain ⟨m1, m2⟩ := method_name p.method
    have w : WritesMembers .array [] (YObj.ofList [(pstr "type", .scalar (curveMethodName p.method)), (pstr "points", .scalar (yPoints env p.points))])
        [(pstr "type", .scalar (curveMethodName p.method)), (pstr "points", .seq (p.points.map fun q =>
          .map [(pstr "x", .scalar (Spec.coordinate env.toConvEnv q.1)), (pstr "y", .scalar (Spec.coordinate env.toConvEnv q.2))]))] := by
      refine writesMembers_ofList (.cons ⟨rfl, (by dsimp only; decide), .scalar (.plain m2)⟩ (.cons ⟨rfl, (by dsimp only; decide), .scalar (.flow (points_flow henv _))⟩ .nil))
        ?_ [] (by simp) ?_
      · show [pstr "type", pstr "points"].Nodup
        decide
      intro _
      refine .inr ?_
      rintro a r ⟨⟩
      exact ⟨_, rfl⟩
    rw [m1] at w
    have := WritesItems.object w ih
    rw [← m1] at this
    simpa [YArr.ofList, pathYaml, asMap, m1] using this

theorem curve_yaml {env : YamlEnv} (henv : YamlTexts env) (c : Curve) (hf : Spec.YamlColor env c.fill) (hs : Spec.YamlColor env c.stroke) :
    ∃ ms, WritesMembers .array [] (YObj.ofList (yCurve env c)) ms ∧ ItemYaml env (.curve c) (asMap ms) := by
  have head : List.Forall₂ MemberYaml (match c.kind with
      | .rect => [(pstr "type", YCall.scalar (pstr "rect"))]
      | .line | .horizontal | .vertical => [(pstr "type", .scalar (pstr "line"))]
      | .curve => [(pstr "type", .scalar (pstr "curve")), (pstr "paths", .array (YArr.ofList (c.paths.map fun p =>
          YObj.ofList [(pstr "type", .scalar (curveMethodName p.method)), (pstr "points", .scalar (yPoints env p.points))])))])
      ((pstr "type", .scalar (Spec.kindName c.kind)) :: (if c.kind = .curve then [(pstr "paths", asSeq (c.paths.map (pathYaml env)))] else [])) := by
    cases c.kind with
    | rect => exact .cons ⟨rfl, (by dsimp only; decide), .scalar (.plain (plain_lit ⟨_, _, rfl, by decide, by decide⟩))⟩ .nil
    | line => exact .cons ⟨rfl, (by dsimp only; decide), .scalar (.plain (plain_lit ⟨_, _, rfl, by decide, by decide⟩))⟩ .nil
    | horizontal => exact .cons ⟨rfl, (by dsimp only; decide), .scalar (.plain (plain_lit ⟨_, _, rfl, by decide, by decide⟩))⟩ .nil
    | vertical => exact .cons ⟨rfl, (by dsimp only; decide), .scalar (.plain (plain_lit ⟨_, _, rfl, by decide, by decide⟩))⟩ .nil
    | curve =>
      exact .cons ⟨rfl, (by dsimp only; decide), .scalar (.plain (plain_lit ⟨_, _, rfl, by decide, by decide⟩))⟩
        (.cons ⟨rfl, (by dsimp only; decide), .array (paths_yaml henv _)⟩ .nil)
  have ok := memberYaml_append (memberYaml_append (memberYaml_append head (box_yaml henv c.bbox)) (color_yaml (pstr "fill") (by decide) c.fill hf))
    (color_yaml (pstr "stroke") (by decide) c.stroke hs)
  refine ⟨_, writesMembers_ofList ok ?_ [] (by simp) ?_, ?_⟩
  · rw [memberYaml_keys ok, List.map_append, List.map_append, List.map_append]
    have hh : ∀ k : List PyStr, (k = [pstr "type"] ∨ k = [pstr "type", pstr "paths"]) → ∀ f : List PyStr, (f = [] ∨ f = [pstr "fill"]) →
        ∀ s : List PyStr, (s = [] ∨ s = [pstr "stroke"]) → (k ++ [pstr "x0", pstr "x1", pstr "y0", pstr "y1"] ++ f ++ s).Nodup := by
      rintro k (rfl | rfl) f (rfl | rfl) s (rfl | rfl) <;> decide
    refine hh _ ?_ _ (colorYaml_keys env _ _) _ (colorYaml_keys env _ _)
    cases c.kind with
    | curve => exact .inr rfl
    | _ => exact .inl rfl
  · intro _
    refine .inr ?_
    intro a r e
    revert e
    cases c.kind <;> (intro e; simp only [List.cons_append, List.cons.injEq] at e; exact ⟨_, by rw [← e.1]⟩)
  · exact .curve

theorem items_yaml {env : YamlEnv} (l : List Item)
    (h : ∀ i ∈ l, ∃ ms, WritesMembers .array [] (YObj.ofList (yItem env i)) ms ∧ ItemYaml env i (asMap ms)) :
    ∃ vs, WritesItems (yItems env l) vs ∧ List.Forall₂ (ItemYaml env) l vs := by
  induction l with
  | nil => exact ⟨[], by rw [yItems]; exact .nil, .nil⟩
  | cons i l ih =>
    obtain ⟨ms, h1, h2⟩ := h i (by simp)
    obtain ⟨vs, i1, i2⟩ := ih (fun i hi => h i (by simp [hi]))
    exact ⟨asMap ms :: vs, by rw [yItems]; exact .object h1 i1, .cons h2 i2⟩

theorem item_yaml {env : YamlEnv} (henv : YamlTexts env) (i : Item) (hi : YamlItem env i) :
    ∃ ms, WritesMembers .array [] (YObj.ofList (yItem env i)) ms ∧ ItemYaml env i (asMap ms) := by
  match i, hi with
  | .curve c, .curve hf hs =>
    rw [yItem]
    exact curve_yaml henv c hf hs
  | .none, .none => exact ⟨[], by rw [yItem]; exact .nil, .none⟩
  | .image d data b, .image (v := v) hv =>
    rw [yItem]
    have ok : List.Forall₂ MemberYaml ([(pstr "type", YCall.scalar (pstr "img")), (pstr "src", .scalar (env.imageName d data))] ++ yBox env b)
        ((pstr "type", .scalar (pstr "img")) :: (pstr "src", v) :: boxYaml env b) :=
      .cons ⟨rfl, (by dsimp only; decide), .scalar (.plain (plain_lit ⟨_, _, rfl, by decide, by decide⟩))⟩ (.cons ⟨rfl, (by dsimp only; decide), .scalar hv⟩ (box_yaml henv b))
    refine ⟨_, writesMembers_ofList ok ?_ [] (by simp) ?_, .image hv⟩
    · rw [memberYaml_keys ok]
      show [pstr "type", pstr "src", pstr "x0", pstr "x1", pstr "y0", pstr "y1"].Nodup
      decide
    · intro _
      refine .inr ?_
      intro a r e
      simp only [List.cons_append, List.cons.injEq] at e
      exact ⟨_, by rw [← e.1]⟩
  | .text b, .text hblocks =>
    rw [yItem]
    obtain ⟨vs, w, hvs⟩ := blocks_yaml henv b.blocks hblocks
    have ok : List.Forall₂ MemberYaml ([(pstr "type", YCall.scalar (pstr "text-block"))] ++ yBoxOpt env b.bbox ++
        [(pstr "char_blocks", .array (YArr.ofList (b.blocks.map fun cb => YObj.ofList (yCharBlock env cb))))])
        ((pstr "type", .scalar (pstr "text-block")) :: boxYamlOpt env b.bbox ++ [(pstr "char_blocks", asSeq vs)]) :=
      memberYaml_append (.cons ⟨rfl, (by dsimp only; decide), .scalar (.plain (plain_lit ⟨_, _, rfl, by decide, by decide⟩))⟩ (boxOpt_yaml henv _))
        (.cons ⟨rfl, (by dsimp only; decide), .array w⟩ .nil)
    refine ⟨_, writesMembers_ofList ok ?_ [] (by simp) ?_, .text hvs⟩
    · rw [memberYaml_keys ok]
      have : ((pstr "type", Yaml.scalar (pstr "text-block")) :: boxYamlOpt env b.bbox ++ [(pstr "char_blocks", asSeq vs)]).map Prod.fst =
          [pstr "type", pstr "x0", pstr "x1", pstr "y0", pstr "y1", pstr "char_blocks"] := by
        cases b.bbox <;> rfl
      rw [this]
      decide
    · intro _
      refine .inr ?_
      intro a r e
      simp only [List.cons_append, List.cons.injEq] at e
      exact ⟨_, by rw [← e.1]⟩
  | .xobj s b r m children, .xobj hch =>
    rw [yItem]
    obtain ⟨vs, w, hvs⟩ := items_yaml children (fun i hi => item_yaml henv i (hch i hi))
    have ok : List.Forall₂ MemberYaml ([(pstr "type", YCall.scalar (pstr "xobject"))] ++ yBox env b ++ [(pstr "children", .array (yItems env children))])
        ((pstr "type", .scalar (pstr "xobject")) :: boxYaml env b ++ [(pstr "children", asSeq vs)]) :=
      memberYaml_append (.cons ⟨rfl, (by dsimp only; decide), .scalar (.plain (plain_lit ⟨_, _, rfl, by decide, by decide⟩))⟩ (box_yaml henv _))
        (.cons ⟨rfl, (by dsimp only; decide), .array w⟩ .nil)
    refine ⟨_, writesMembers_ofList ok ?_ [] (by simp) ?_, .xobj hvs⟩
    · rw [memberYaml_keys ok]
      show [pstr "type", pstr "x0", pstr "x1", pstr "y0", pstr "y1", pstr "children"].Nodup
      decide
    · intro _
      refine .inr ?_
      intro a r e
      simp only [List.cons_append, List.cons.injEq] at e
      exact ⟨_, by rw [← e.1]⟩
termination_by i

theorem page_yaml {env : YamlEnv} (henv : YamlTexts env) (p : LtPage) (hp : ∀ i ∈ p.items, YamlItem env i) :
    ∃ ms, WritesMembers .array [] (yPage env p) ms ∧ PageYaml env p (asMap ms) := by
  obtain ⟨vs, w, hvs⟩ := items_yaml p.items (fun i hi => item_yaml henv i (hp i hi))
  refine ⟨[(pstr "id", .scalar (numText p.num)), (pstr "width", .scalar (env.fmt p.width)), (pstr "height", .scalar (env.fmt p.height)),
    (pstr "children", asSeq vs)], writesMembers_ofList (.cons ⟨rfl, (by dsimp only; decide), .scalar (.plain (plain_numText _))⟩
      (.cons ⟨rfl, (by dsimp only; decide), .scalar (.plain (henv.number _).1)⟩ (.cons ⟨rfl, (by dsimp only; decide), .scalar (.plain (henv.number _).1)⟩
        (.cons ⟨rfl, (by dsimp only; decide), .array w⟩ .nil)))) ?_ [] (by simp) ?_, .mk hvs⟩
  · show [pstr "id", pstr "width", pstr "height", pstr "children"].Nodup
    decide
  · intro _
    refine .inr ?_
    rintro a r ⟨⟩
    exact ⟨_, rfl⟩

/-- **C85 (partial).** The YAML file is a YAML document with the key `pages` alone, that has one mapping for every page, in order, with the
number and size of the page and a mapping for every item with its class, box, colours, paths, font descriptor and text; and it can be read in
no other way. Missing: texts that are not plain scalars (see `yaml_forged_page_counterexample`, `yaml_trailing_space_counterexample`), and the types that a reader gives to scalars. -/
theorem yaml_document_partial (env : YamlEnv) (henv : YamlTexts env) (pages : List LtPage) (hitems : ∀ p ∈ pages, ∀ i ∈ p.items, YamlItem env i) :
    ∃ vs, YamlText (yamlFile env pages) (.map [(pstr "pages", asSeq vs)]) ∧ List.Forall₂ (PageYaml env) pages vs ∧
      ∀ v, YamlText (yamlFile env pages) v → v = .map [(pstr "pages", asSeq vs)] := by
  have : ∃ vs, WritesItems (YArr.ofList (pages.map (yPage env))) vs ∧ List.Forall₂ (PageYaml env) pages vs := by
    induction pages with
    | nil => exact ⟨[], .nil, .nil⟩
    | cons p l ih =>
      obtain ⟨ms, h1, h2⟩ := page_yaml henv p (hitems p (by simp))
      obtain ⟨vs, i1, i2⟩ := ih (fun p h => hitems p (by simp [h]))
      exact ⟨asMap ms :: vs, .object h1 i1, .cons h2 i2⟩
  obtain ⟨vs, h1, h2⟩ := this
  have w : YamlText (yamlFile env pages) (.map [(pstr "pages", asSeq vs)]) := by
    refine yaml_writer_partial _ _ (writesMembers_ofList (.cons ⟨rfl, (by dsimp only; decide), .array h1⟩ .nil) (by simp) [] (by simp) ?_) (by simp)
    intro _
    exact .inl rfl
  exact ⟨vs, w, h2, fun v hv => yaml_unique _ _ _ hv w⟩

/-! ### The hypotheses are met -/

/-- An environment for examples. -/
def sampleYaml (key : PyStr) : YamlEnv := { toConvEnv := sampleEnv key, valueText := fun _ => pstr "0.5" }

theorem sampleYaml_ok (key : PyStr) : YamlTexts (sampleYaml key) := by
  refine ⟨fun _ => ⟨plain_lit (s := pstr "0") ⟨_, _, rfl, by decide, by decide⟩, (by decide : pstr "0" ≠ []), ?_⟩⟩
  intro c hc
  exact ⟨yamlChar_of ((by decide : ∀ c ∈ pstr "0", 0x20 ≤ c ∧ c ≤ 0x7e) c hc),
    (by decide : ∀ c ∈ pstr "0", c ∉ cp " ,[]{}:#&*!|>'\"%@`?") c hc⟩

theorem sampleYaml_color (key : PyStr) (c : Color) : Spec.YamlColor (sampleYaml key) c := by
  refine fun _ _ => ⟨plain_lit (s := pstr "DeviceGray") ⟨_, _, rfl, by decide, by decide⟩, fun _ _ c hc => ?_⟩
  exact ⟨yamlChar_of ((by decide : ∀ c ∈ pstr "0.5", 0x20 ≤ c ∧ c ≤ 0x7e) c hc), (by decide : ∀ c ∈ pstr "0.5", c ≠ '\''.toNat) c hc⟩

theorem plain_hello : Plain (pstr "Hello, World!") := by
  refine ⟨fun c hc => yamlChar_of ((by decide : ∀ c ∈ pstr "Hello, World!", 0x20 ≤ c ∧ c ≤ 0x7e) c hc), ⟨_, _, rfl, by decide, by decide, fun h => absurd h (by decide)⟩,
    by decide, by decide, by decide⟩

theorem samplePage_yaml (texts : List PyStr) (h : Plain texts.flatten) :
    ∀ i ∈ (samplePage texts).items, YamlItem (sampleYaml (pstr "FontName")) i := by
  intro i hi
  simp only [samplePage, List.mem_cons, List.not_mem_nil, or_false] at hi
  rcases hi with rfl | rfl
  · refine .xobj fun i hi => ?_
    rw [List.mem_singleton.1 hi]
    refine .text fun cb hcb => ?_
    rw [List.mem_singleton.1 hcb]
    refine ⟨.inr ?_, sampleYaml_color _ _, by simp [sampleYaml, sampleEnv], fun p hp => ?_, fun p hp _ => ?_⟩
    · simpa [Function.comp_def] using h
    · rw [List.mem_singleton.1 hp]; decide
    · rw [List.mem_singleton.1 hp]
      exact ⟨by decide, _, .plain (plain_lit ⟨_, _, rfl, by decide, by decide⟩)⟩
  · exact .none

/-- A page with a curve. -/
def curvePage : LtPage :=
  ⟨2, 3, 4, [.curve ⟨.curve, .int 1, [⟨.moveTo, [(some 1, some 2)]⟩, ⟨.closePath, []⟩], ⟨0, 0, 1, 2⟩, ⟨none, []⟩, ⟨some ⟨asc "DeviceGray", .int 1⟩, [.int 1]⟩, false⟩]⟩

example : ∃ vs, YamlText (yamlFile (sampleYaml (pstr "FontName")) [samplePage [pstr "Hello, ", pstr "World!"], curvePage])
    (.map [(pstr "pages", .seq vs)]) :=
  let ⟨vs, h, h2, _⟩ := yaml_document_partial (sampleYaml (pstr "FontName")) (sampleYaml_ok _)
    [samplePage [pstr "Hello, ", pstr "World!"], curvePage] (by
      intro p hp
      rcases List.mem_cons.1 hp with rfl | hp
      · exact samplePage_yaml _ plain_hello
      · rw [List.mem_singleton.1 hp]
        intro i hi
        rw [List.mem_singleton.1 hi]
        exact .curve (sampleYaml_color _ _) (sampleYaml_color _ _))
  ⟨vs, by cases h2; exact h⟩

/-! ### What does not hold -/

/-- A page with the text in its only block. -/
def textPageOf (t : PyStr) : LtPage :=
  ⟨1, 0, 0, [.text ⟨some ⟨0, 0, 0, 0⟩, [⟨[(t, ⟨0, 0, 0, 0⟩, 0)], ⟨0, 0, 0, 0⟩, 0, sampleFont, .int 0, ⟨none, []⟩⟩]⟩]⟩

/-- A text with line breaks makes the same file as a document with one more page: texts are not quoted. -/
theorem yaml_forged_page_counterexample :
    yamlFile (sampleYaml (pstr "FontName")) [textPageOf (pstr "a\n  - id: 2\n    width: 0\n    height: 0\n    children:\n")] =
      yamlFile (sampleYaml (pstr "FontName")) [textPageOf (pstr "a"), ⟨2, 0, 0, []⟩] := by
  decide +kernel

/-- The spaces at the end of a text are lost: the files with and without them are read in the same way. -/
theorem yaml_trailing_space_counterexample (v : Yaml) :
    textFile [textPageOf (pstr "a ")] ≠ textFile [textPageOf (pstr "a")] ∧
    (YamlText (yamlFile (sampleYaml (pstr "FontName")) [textPageOf (pstr "a ")]) v ↔
      YamlText (yamlFile (sampleYaml (pstr "FontName")) [textPageOf (pstr "a")]) v) := by
  refine ⟨by decide +kernel, ?_⟩
  have : Spec.yamlLines (yamlFile (sampleYaml (pstr "FontName")) [textPageOf (pstr "a ")]) =
      Spec.yamlLines (yamlFile (sampleYaml (pstr "FontName")) [textPageOf (pstr "a")]) := by decide +kernel
  rw [YamlText, YamlText, this]

/-- A font descriptor with the key `text` hides the text: two pages with different texts make the same file. -/
theorem yaml_hidden_text_counterexample :
    yamlFile (sampleYaml (pstr "text")) [textPageOf (pstr "a")] = yamlFile (sampleYaml (pstr "text")) [textPageOf (pstr "b")] := by
  decide +kernel

/-- A page without items has null for its children, not an empty sequence. -/
theorem yaml_no_children_counterexample :
    YamlText (yamlFile (sampleYaml (pstr "FontName")) [⟨1, 0, 0, []⟩]) (.map [(pstr "pages", .seq [.map [(pstr "id", .scalar (pstr "1")),
      (pstr "width", .scalar (pstr "0")), (pstr "height", .scalar (pstr "0")), (pstr "children", .null)]])]) := by
  obtain ⟨vs, h, h2, _⟩ := yaml_document_partial (sampleYaml (pstr "FontName")) (sampleYaml_ok _) [⟨1, 0, 0, []⟩] (by simp)
  cases h2 with
  | cons h3 h4 =>
    cases h4
    cases h3 with
    | mk h5 =>
      cases h5
      have : numText 1 = pstr "1" := by decide +kernel
      rw [this] at h
      exact h

end Pdf

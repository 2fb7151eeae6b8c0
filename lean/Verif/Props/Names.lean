import Verif.Model.Names
import Verif.Spec.Names
import Verif.Props.Pages
/-! C62 name trees, C63 outlines. -/

namespace Pdf
open Spec

variable {τ : Type}

/-- What is reported about an item. -/
def outlineEntry (dt : Bytes → τ) (x : Nat × Dict) (s : Bytes) : Outline τ :=
  ⟨x.1, dt s, dictGet x.2 (.name (asc "Dest")), dictGet x.2 (.name (asc "A")), dictGet x.2 (.name (asc "SE"))⟩

/-- A reported outline and the item of the document it stands for: the depth, the decoded title and the entries of the item. -/
structure OutlineOf (R : Resolver) (dt : Bytes → τ) (o : Outline τ) (x : Nat × Dict) : Prop where
  level : o.level = x.1
  title : ∃ t s, dictGet x.2 (.name (asc "Title")) = some t ∧ R.resolve1 t = .ok (.str s) ∧ o.title = dt s
  dest : o.dest = dictGet x.2 (.name (asc "Dest"))
  action : o.action = dictGet x.2 (.name (asc "A"))
  se : o.se = dictGet x.2 (.name (asc "SE"))

/-- The titles of the linked items are strings. -/
def TitleStr (R : Resolver) (x : Nat × Dict) : Prop :=
  Linked x.2 → ∀ t, dictGet x.2 (.name (asc "Title")) = some t → ∃ s, R.resolve1 t = .ok (.str s)

theorem item_spec (R : Resolver) (dt : Bytes → τ) (d : Dict) (level : Nat) (h : TitleStr R (level, d)) :
    ∃ items, outlineItem R dt d level = (items, none) ∧
      List.Forall₂ (OutlineOf R dt) items ([(level, d)].filter fun x => decide (Linked x.2)) := by
  unfold outlineItem
  by_cases hl : Linked d
  · obtain ⟨h1, h2⟩ := id hl
    obtain ⟨t, ht⟩ := Option.ne_none_iff_exists'.1 h1
    obtain ⟨s, hs⟩ := h hl t ht
    refine ⟨[outlineEntry dt (level, d) s], ?_, ?_⟩
    · rw [show dictGet d (nm "Title") = some t from ht]
      dsimp only
      rw [if_pos (by simpa [Option.isSome_iff_ne_none, nm] using h2)]
      simp only [Resolver.strValue, hs]
      rfl
    · simp only [hl, decide_true, List.filter_cons_of_pos, List.filter_nil]
      exact .cons ⟨rfl, ⟨t, s, ht, hs, rfl⟩, rfl, rfl, rfl⟩ .nil
  · refine ⟨[], ?_, by simp [hl]⟩
    cases ht : dictGet d (nm "Title") with
    | none => rfl
    | some t =>
      have : ¬ ((dictGet d (nm "A")).isSome ∨ (dictGet d (nm "Dest")).isSome) := fun h2 =>
        hl ⟨by rw [show dictGet d (.name (asc "Title")) = some t from ht]; simp, by simpa [Option.isSome_iff_ne_none, nm] using h2⟩
      dsimp only
      rw [if_neg this]

mutual
theorem items_search (R : Resolver) (dt : Bytes → τ) {d ts} (h : HasItems R d ts) (level : Nat) (ht : ∀ x ∈ preorderAll level ts, TitleStr R x) :
    ∃ N items, (∀ fuel ≥ N, (below d fun o => outlineSearch R dt fuel o level) = (items, none)) ∧
      List.Forall₂ (OutlineOf R dt) items ((preorderAll level ts).filter fun x => decide (Linked x.2)) :=
  match h with
  | .none hn => by
    refine ⟨0, [], fun fuel _ => ?_, by simp [preorderAll]⟩
    unfold below
    rcases hn with hn | hn
    · rw [show dictGet d (nm "First") = none from hn]
    · rw [show dictGet d (nm "Last") = none from hn]
      cases dictGet d (nm "First") <;> rfl
  | .some h1 h2 hc => by
    obtain ⟨N, items, a, b⟩ := chain_search R dt hc level ht
    refine ⟨N, items, fun fuel hf => ?_, b⟩
    unfold below
    rw [show dictGet d (nm "First") = _ from h1, show dictGet d (nm "Last") = _ from h2]
    exact a fuel hf
theorem chain_search (R : Resolver) (dt : Bytes → τ) {o ts} (h : ItemChain R o ts) (level : Nat) (ht : ∀ x ∈ preorderAll level ts, TitleStr R x) :
    ∃ N items, (∀ fuel ≥ N, outlineSearch R dt fuel o level = (items, none)) ∧
      List.Forall₂ (OutlineOf R dt) items ((preorderAll level ts).filter fun x => decide (Linked x.2)) :=
  match h with
  | .last (d := d) (cs := cs) hr hi hn => by
    obtain ⟨x1, a1, b1⟩ := item_spec R dt d level (ht _ (by simp [preorderAll, OutlineNode.preorder]))
    obtain ⟨N, x2, a2, b2⟩ := items_search R dt hi (level + 1) (fun x hx => ht x (by simp [preorderAll, OutlineNode.preorder, hx]))
    refine ⟨N + 1, x1 ++ x2, fun fuel hf => ?_, ?_⟩
    · obtain ⟨f, rfl⟩ : ∃ f, fuel = f + 1 := ⟨fuel - 1, by omega⟩
      rw [outlineSearch]
      simp only [Resolver.dictValue, hr]
      rw [a1, a2 f (by omega), show dictGet d (nm "Next") = none from hn]
      simp [Gen.andThen]
    · simp only [preorderAll, OutlineNode.preorder, List.append_nil]
      rw [← List.singleton_append, List.filter_append]
      exact List.rel_append b1 b2
  | .next (d := d) (cs := cs) (n := n) (ts := ts) hr hi hn hc => by
    obtain ⟨x1, a1, b1⟩ := item_spec R dt d level (ht _ (by simp [preorderAll, OutlineNode.preorder]))
    obtain ⟨N, x2, a2, b2⟩ := items_search R dt hi (level + 1) (fun x hx => ht x (by simp [preorderAll, OutlineNode.preorder, hx]))
    obtain ⟨M, x3, a3, b3⟩ := chain_search R dt hc level (fun x hx => ht x (by simp [preorderAll, OutlineNode.preorder, hx]))
    refine ⟨N + M + 1, x1 ++ (x2 ++ x3), fun fuel hf => ?_, ?_⟩
    · obtain ⟨f, rfl⟩ : ∃ f, fuel = f + 1 := ⟨fuel - 1, by omega⟩
      rw [outlineSearch]
      simp only [Resolver.dictValue, hr]
      rw [a1, a2 f (by omega), show dictGet d (nm "Next") = some n from hn]
      dsimp only
      rw [a3 f (by omega)]
      simp [Gen.andThen]
    · simp only [preorderAll, OutlineNode.preorder]
      rw [← List.singleton_append, List.append_assoc, List.filter_append, List.filter_append]
      exact List.rel_append b1 (List.rel_append b2 b3)
end

/-- C63. If the `Outlines` entry of the catalog leads to a dictionary without title and sibling, with the items `ts` below it, then
`get_outlines` yields, without error, exactly the items that have a title and a destination or action, each once, in preorder, the items
directly below the root at level 1. -/
theorem outlines (R : Resolver) (dt : Bytes → τ) (catalog : Dict) {root : Obj} {d : Dict} {ts : List OutlineNode}
    (hroot : dictGet catalog (.name (asc "Outlines")) = some root) (hd : R.resolve1 root = .ok (.dict d))
    (hno : dictGet d (.name (asc "Title")) = none) (hnext : dictGet d (.name (asc "Next")) = none) (hi : HasItems R d ts)
    (ht : ∀ x ∈ preorderAll 1 ts, Linked x.2 → ∀ t, dictGet x.2 (.name (asc "Title")) = some t → ∃ s, R.resolve1 t = .ok (.str s)) :
    ∃ N items, (∀ fuel ≥ N, getOutlines R dt catalog fuel = .ok (items, none)) ∧
      List.Forall₂ (OutlineOf R dt) items ((preorderAll 1 ts).filter fun x => decide (Linked x.2)) := by
  obtain ⟨N, items, a, b⟩ := items_search R dt hi 1 ht
  refine ⟨N + 1, items, fun fuel hf => ?_, b⟩
  obtain ⟨f, rfl⟩ : ∃ f, fuel = f + 1 := ⟨fuel - 1, by omega⟩
  unfold getOutlines
  rw [show dictGet catalog (nm "Outlines") = _ from hroot]
  dsimp only
  rw [outlineSearch]
  simp only [Resolver.dictValue, hd]
  simp only [Nat.zero_add, a f (show f ≥ N by omega)]
  rw [show dictGet d (nm "Next") = none from hnext]
  simp only [outlineItem, show dictGet d (nm "Title") = none from hno]
  simp [Gen.andThen]

/-- C63. A document without outlines: `PDFNoOutlines`. -/
theorem no_outlines (R : Resolver) (dt : Bytes → τ) (catalog : Dict) (h : dictGet catalog (.name (asc "Outlines")) = none) (fuel : Nat) :
    getOutlines R dt catalog fuel = .error .pdfNoOutlines := by
  unfold getOutlines; rw [show dictGet catalog (nm "Outlines") = none from h]

/-- C63. An item whose title is not a string makes `get_outlines` fail. -/
theorem outline_bad_title (R : Resolver) (dt : Bytes → τ) (d : Dict) (level : Nat) {t v} (hl : Linked d)
    (ht : dictGet d (.name (asc "Title")) = some t) (hv : R.resolve1 t = .ok v) (hs : ∀ s, v ≠ .str s) :
    outlineItem R dt d level = ([], some .typeError) := by
  unfold outlineItem
  rw [show dictGet d (nm "Title") = some t from ht]
  dsimp only
  rw [if_pos (by simpa [Option.isSome_iff_ne_none, nm] using hl.2)]
  simp only [Resolver.strValue, hv]

/-! ### Name trees -/

theorem bytesLt_iff (a b : Bytes) : bytesLt a b = true ↔ a < b := by
  induction a generalizing b with
  | nil => cases b <;> simp [bytesLt]
  | cons x xs ih =>
    cases b with
    | nil => simp [bytesLt]
    | cons y ys =>
      rw [bytesLt, List.cons_lt_cons_iff]
      by_cases h1 : x < y
      · simp [h1]
      · by_cases h2 : y < x
        · have : x ≠ y := fun h => by subst h; exact absurd h2 h1
          simp [h1, h2, this]
        · have : x = y := by
            apply UInt8.toNat_inj.1
            rw [UInt8.lt_iff_toNat_lt] at h1 h2
            omega
          simp [h1, h2, this, ih]

theorem checkLimits_spec (R : Resolver) (k : Bytes) (d : Dict) (lim : Option (Bytes × Bytes)) (h : HasLimits R d lim) :
    ∃ b, checkLimits R (.str k) d = .ok b ∧ (b = false ↔ Within k lim) := by
  unfold checkLimits
  cases lim with
  | none =>
    rw [show dictGet d (nm "Limits") = none from h]
    exact ⟨false, rfl, by simp [Within]⟩
  | some l =>
    obtain ⟨lo, hi⟩ := l
    obtain ⟨o, h1, h2⟩ := h
    rw [show dictGet d (nm "Limits") = some o from h1]
    simp only [Resolver.listValue, h2, outsideLimits, Within, ← bytesLt_iff]
    cases h3 : bytesLt k lo <;> cases h4 : bytesLt hi k <;> simp

theorem pairsDict_spec (es : List (Bytes × Obj)) (d : Dict) (h : (es.map Prod.fst).Nodup) :
    ∃ d', pairsDict d (es.flatMap fun e => [.str e.1, e.2]) = .ok d' ∧
      ∀ k, dictGet d' (.str k) = match dictGet es k with | some v => some v | none => dictGet d (.str k) := by
  induction es generalizing d with
  | nil => exact ⟨d, rfl, fun k => rfl⟩
  | cons e es ih =>
    obtain ⟨k0, v0⟩ := e
    simp only [List.map_cons, List.nodup_cons] at h
    obtain ⟨d', h1, h2⟩ := ih (dictSet d (.str k0) v0) h.2
    refine ⟨d', ?_, fun k => ?_⟩
    · simpa [pairsDict, Obj.key] using h1
    · rw [h2, dictGet_dictSet, dictGet]
      by_cases hk : k0 = k
      · subst hk
        have : dictGet es k0 = none := by
          have hni := h.1
          clear h1 h2 ih h
          induction es with
          | nil => rfl
          | cons e es ih =>
            obtain ⟨a, b⟩ := e
            simp only [List.map_cons, List.mem_cons, not_or] at hni
            rw [dictGet, if_neg (fun h => hni.1 h.symm), ih hni.2]
        rw [this]; simp
      · rw [if_neg hk, if_neg (by simpa using hk)]

theorem dictGet_mem_iff {α : Type} (es : List (Bytes × α)) (k : Bytes) (v : α) (h : (es.map Prod.fst).Nodup) :
    dictGet es k = some v ↔ (k, v) ∈ es := by
  induction es with
  | nil => simp [dictGet]
  | cons e es ih =>
    obtain ⟨a, b⟩ := e
    simp only [List.map_cons, List.nodup_cons] at h
    rw [dictGet]
    by_cases hk : a = k
    · subst hk
      rw [if_pos rfl]
      constructor
      · intro h; cases h; simp
      · intro hm
        rcases List.mem_cons.1 hm with hm | hm
        · cases hm; rfl
        · exact absurd (List.mem_map.2 ⟨_, hm, rfl⟩) h.1
    · rw [if_neg hk, ih h.2]
      simp [Ne.symm hk]

/-- What a search below a node gives. -/
def LookupSpec (k : Bytes) (t : NameTree) (r : Except PyErr Obj) : Prop :=
  (¬ Within k t.limits → r = .ok .null) ∧ (Within k t.limits → (∀ v, (k, v) ∈ t.entries → r = .ok v) ∧ ((∀ v, (k, v) ∉ t.entries) → r = .error .keyError))

theorem Spec.Destination.truthy {v} (h : Destination v) : v.truthy = true := by cases h <;> rfl

mutual
theorem Spec.NameTree.Consistent.within {t : NameTree} (h : t.Consistent) : ∀ e ∈ t.entries, Within e.1 t.limits :=
  match h with
  | .leaf h _ => h
  | .node h _ => h
end

theorem Spec.AllConsistent.mem {ts : List NameTree} (h : AllConsistent ts) : ∀ t ∈ ts, t.Consistent := by
  induction ts with
  | nil => simp
  | cons t ts ih =>
    cases h with
    | cons h1 _ _ h2 =>
      intro s hs
      rcases List.mem_cons.1 hs with rfl | hs
      · exact h1
      · exact ih h2 s hs

theorem mem_entriesAll {ts : List NameTree} {e} : e ∈ entriesAll ts ↔ ∃ t ∈ ts, e ∈ t.entries := by
  induction ts with
  | nil => simp [entriesAll]
  | cons t ts ih => simp [entriesAll, ih]

mutual
theorem names_lookup (R : Resolver) (k : Bytes) {d t} (h : IsNames R d t) (hc : t.Consistent) (hv : ∀ e ∈ t.entries, Destination e.2) :
    ∃ N r, (∀ fuel ≥ N, nameLookup R (.str k) fuel d = r) ∧ LookupSpec k t r :=
  match h, hc with
  | .leaf (lim := lim) (es := es) (o := o) hl hn hr, .leaf hw hd => by
    obtain ⟨b, hb1, hb2⟩ := checkLimits_spec R k d lim hl
    obtain ⟨nd, hp1, hp2⟩ := pairsDict_spec es [] hd
    cases b with
    | true =>
      refine ⟨1, .ok .null, fun fuel hf => ?_, fun _ => rfl, fun hw => by simp [NameTree.limits] at hw; simp [hw] at hb2⟩
      obtain ⟨f, rfl⟩ : ∃ f, fuel = f + 1 := ⟨fuel - 1, by omega⟩
      rw [nameLookup, hb1]
    | false =>
      have hwk : Within k lim := hb2.1 rfl
      refine ⟨1, match dictGet es k with | some v => .ok v | none => .error .keyError, fun fuel hf => ?_, fun hw => absurd hwk hw, fun _ => ⟨fun v hv => ?_, fun hno => ?_⟩⟩
      · obtain ⟨f, rfl⟩ : ∃ f, fuel = f + 1 := ⟨fuel - 1, by omega⟩
        rw [nameLookup, hb1]
        dsimp only
        rw [show dictGet d (nm "Names") = some o from hn]
        simp only [Resolver.listValue, hr, hp1, hp2]
        cases dictGet es k <;> rfl
      · rw [(dictGet_mem_iff es k v hd).2 hv]
      · cases hg : dictGet es k with
        | none => rfl
        | some v => exact absurd ((dictGet_mem_iff es k v hd).1 hg) (hno v)
  | .node (lim := lim) (kids := kids) (o := o) (l := l) hl hn hk hr hns, .node hw hall => by
    obtain ⟨b, hb1, hb2⟩ := checkLimits_spec R k d lim hl
    obtain ⟨N, r, hN, hs1, hs2⟩ := kids_lookup R k hns hall hv
    cases b with
    | true =>
      refine ⟨1, .ok .null, fun fuel hf => ?_, fun _ => rfl, fun hw => by simp [NameTree.limits] at hw; simp [hw] at hb2⟩
      obtain ⟨f, rfl⟩ : ∃ f, fuel = f + 1 := ⟨fuel - 1, by omega⟩
      rw [nameLookup, hb1]
    | false =>
      have hwk : Within k lim := hb2.1 rfl
      refine ⟨N + 1, r, fun fuel hf => ?_, fun hw => absurd hwk hw, fun _ => ⟨hs1, hs2⟩⟩
      obtain ⟨f, rfl⟩ : ∃ f, fuel = f + 1 := ⟨fuel - 1, by omega⟩
      rw [nameLookup, hb1]
      dsimp only
      rw [show dictGet d (nm "Names") = none from hn, show dictGet d (nm "Kids") = some o from hk]
      simp only [Resolver.listValue, hr]
      exact hN f (by omega)
theorem kids_lookup (R : Resolver) (k : Bytes) {os ts} (h : AreNames R os ts) (hc : AllConsistent ts) (hv : ∀ e ∈ entriesAll ts, Destination e.2) :
    ∃ N r, (∀ fuel ≥ N, firstTruthy (fun c => match R.dictValue c with
            | .error e => .error e
            | .ok d => nameLookup R (.str k) fuel d) os = r) ∧
      (∀ v, (k, v) ∈ entriesAll ts → r = .ok v) ∧ ((∀ v, (k, v) ∉ entriesAll ts) → r = .error .keyError) :=
  match h, hc with
  | .nil, _ => ⟨0, .error .keyError, fun _ _ => rfl, by simp [entriesAll], fun _ => rfl⟩
  | .cons (o := o) (d := d) (t := t) (os := os) (ts := ts) hr h1 h2, .cons c1 hlim hdis c2 => by
    obtain ⟨N1, r1, a1, b1⟩ := names_lookup R k h1 c1 (fun e he => hv e (by simp [entriesAll, he]))
    obtain ⟨N2, r2, a2, b2, b3⟩ := kids_lookup R k h2 c2 (fun e he => hv e (by simp [entriesAll, he]))
    by_cases hw : Within k t.limits
    · have hno : ∀ v, (k, v) ∉ entriesAll ts := by
        intro v hm
        obtain ⟨s, hs, he⟩ := mem_entriesAll.1 hm
        exact hdis s hs k ⟨hw, (c2.mem s hs).within _ he⟩
      obtain ⟨p1, p2⟩ := b1.2 hw
      refine ⟨N1, r1, fun fuel hf => ?_, fun v hm => ?_, fun hn => ?_⟩
      · have hx := a1 fuel hf
        rw [firstTruthy]
        simp only [Resolver.dictValue, hr, hx]
        by_cases hex : ∃ v, (k, v) ∈ t.entries
        · obtain ⟨v, hm⟩ := hex
          have hd : v.truthy = true := Destination.truthy (hv (k, v) (by simp [entriesAll, hm]))
          rw [p1 v hm]
          simp [hd]
        · rw [p2 (fun v hm => hex ⟨v, hm⟩)]
      · rcases List.mem_append.1 (by simpa [entriesAll] using hm) with hm | hm
        · exact p1 v hm
        · exact absurd hm (hno v)
      · exact p2 fun v hm => hn v (by simp [entriesAll, hm])
    · refine ⟨N1 + N2, r2, fun fuel hf => ?_, fun v hm => ?_, fun hn => ?_⟩
      · have hx := a1 fuel (by omega)
        have hy := a2 fuel (by omega)
        simp only [Resolver.dictValue] at hy
        rw [firstTruthy]
        simp only [Resolver.dictValue, hr, hx, b1.1 hw, Obj.truthy]
        simpa using hy
      · rcases List.mem_append.1 (by simpa [entriesAll] using hm) with hm | hm
        · exact absurd (c1.within _ hm) hw
        · exact b2 v hm
      · exact b3 fun v hm => hn v (by simp [entriesAll, hm])
end

/-- The document has the name tree `t` for the category. -/
structure HasNames (R : Resolver) (catalog : Dict) (cat : Key) (t : NameTree) : Prop where
  ex : ∃ o names o' d, dictGet catalog (.name (asc "Names")) = some o ∧ R.resolve1 o = .ok (.dict names) ∧ dictGet names cat = some o' ∧
    R.resolve1 o' = .ok (.dict d) ∧ IsNames R d t

/-- C62. In a name tree with consistent limits, whose root has none, `lookup_name` returns the value stored under the name, if there is one,
and raises `KeyError` otherwise. Values are references, or arrays or dictionaries that are not empty. -/
theorem lookup_names (R : Resolver) (catalog : Dict) (cat : Key) (t : NameTree) (k : Bytes) (h : HasNames R catalog cat t) (hc : t.Consistent)
    (hroot : t.limits = none) (hv : ∀ e ∈ t.entries, Destination e.2) :
    ∃ N, ∀ fuel ≥ N, (∀ v, (k, v) ∈ t.entries → lookupName R catalog cat (.str k) fuel = .ok v) ∧
      ((∀ v, (k, v) ∉ t.entries) → lookupName R catalog cat (.str k) fuel = .error .keyError) := by
  obtain ⟨o, names, o', d, h1, h2, h3, h4, h5⟩ := h.ex
  obtain ⟨N, r, hN, _, hs⟩ := names_lookup R k h5 hc hv
  refine ⟨N, fun fuel hf => ?_⟩
  have : lookupName R catalog cat (.str k) fuel = r := by
    unfold lookupName
    rw [show dictGet catalog (nm "Names") = some o from h1]
    simp only [Resolver.dictValue, h2, h3, h4]
    exact hN fuel hf
  rw [this]
  exact hs (by rw [hroot]; trivial)

/-- C62. `get_dest` returns the destination stored under the name in the name tree `Dests`, if there is one, and otherwise raises
`PDFDestinationNotFound` in a document without a `Dests` dictionary (that of PDF 1.1) in its catalog. -/
theorem destinations (R : Resolver) (catalog : Dict) (t : NameTree) (k : Bytes) (h : HasNames R catalog (.name (asc "Dests")) t) (hc : t.Consistent)
    (hroot : t.limits = none) (hv : ∀ e ∈ t.entries, Destination e.2) :
    ∃ N, ∀ fuel ≥ N, (∀ v, (k, v) ∈ t.entries → getDest R catalog (.str k) fuel = .ok v) ∧
      ((∀ v, (k, v) ∉ t.entries) → dictGet catalog (.name (asc "Dests")) = none → getDest R catalog (.str k) fuel = .error .pdfDestNotFound) := by
  obtain ⟨N, hN⟩ := lookup_names R catalog _ t k h hc hroot hv
  refine ⟨N, fun fuel hf => ⟨fun v hm => ?_, fun hno hd => ?_⟩⟩
  · unfold getDest
    rw [show lookupName R catalog (nm "Dests") (.str k) fuel = .ok v from (hN fuel hf).1 v hm]
  · unfold getDest
    rw [show lookupName R catalog (nm "Dests") (.str k) fuel = .error .keyError from (hN fuel hf).2 hno]
    simp only [if_pos, oldDest, show dictGet catalog (nm "Dests") = none from hd]

/-- C62. A document of PDF 1.1, without name trees: `get_dest` of a name (given as `str`) is the entry of the dictionary `Dests`, or
`PDFDestinationNotFound`. -/
theorem old_destinations (R : Resolver) (catalog d : Dict) {o} (k : Key) (fuel : Nat) (h : dictGet catalog (.name (asc "Names")) = none)
    (h1 : dictGet catalog (.name (asc "Dests")) = some o) (h2 : R.resolve1 o = .ok (.dict d)) :
    getDest R catalog k fuel = match dictGet d k with | some v => .ok v | none => .error .pdfDestNotFound := by
  unfold getDest lookupName oldDest
  rw [show dictGet catalog (nm "Names") = none from h, show dictGet catalog (nm "Dests") = some o from h1]
  simp only [if_pos, Resolver.dictValue, h2]
  cases dictGet d k <;> rfl

/-- A document without any destinations. -/
theorem no_destinations (R : Resolver) (catalog : Dict) (k : Key) (fuel : Nat) (h : dictGet catalog (.name (asc "Names")) = none)
    (h1 : dictGet catalog (.name (asc "Dests")) = none) : getDest R catalog k fuel = .error .pdfDestNotFound := by
  unfold getDest lookupName oldDest
  rw [show dictGet catalog (nm "Names") = none from h, show dictGet catalog (nm "Dests") = none from h1]
  simp

/-! ### Examples and counterexamples -/

/-- A resolver for a table of objects. -/
def tableResolver (t : List (Int × Obj)) : Resolver where
  resolve1
    | .ref i _ => match dictGet t i with
      | some o => .ok o
      | none => .ok .null
    | o => .ok o
  getobj i := match dictGet t i with
    | some o => .ok o
    | none => .error .pdfObjectNotFound

/-- An outline: A (with B and C below it), D. C has no destination. -/
def demoItem (t : String) (dest : List (Key × Obj)) (links : List (Key × Obj)) : Obj := .dict ([(nm "Title", .str (asc t))] ++ dest ++ links)
def demoOutlines : Resolver := tableResolver
  [(1, .dict [(nm "First", .ref 2 0), (nm "Last", .ref 5 0)]),
   (2, demoItem "A" [(nm "Dest", .int 7)] [(nm "First", .ref 3 0), (nm "Last", .ref 4 0), (nm "Next", .ref 5 0)]),
   (3, demoItem "B" [(nm "A", .int 8)] [(nm "Next", .ref 4 0)]),
   (4, demoItem "C" [] []),
   (5, demoItem "D" [(nm "Dest", .int 9)] [])]

/-- The items of the outline above. -/
def demoNodes : List OutlineNode :=
  [.mk [(nm "Title", .str (asc "A")), (nm "Dest", .int 7), (nm "First", .ref 3 0), (nm "Last", .ref 4 0), (nm "Next", .ref 5 0)]
      [.mk [(nm "Title", .str (asc "B")), (nm "A", .int 8), (nm "Next", .ref 4 0)] [], .mk [(nm "Title", .str (asc "C"))] []],
   .mk [(nm "Title", .str (asc "D")), (nm "Dest", .int 9)] []]

theorem demo_items : HasItems demoOutlines [(nm "First", .ref 2 0), (nm "Last", .ref 5 0)] demoNodes :=
  .some (f := .ref 2 0) (l := .ref 5 0) rfl rfl <|
    .next (n := .ref 5 0) rfl
      (.some (f := .ref 3 0) (l := .ref 4 0) rfl rfl (.next (n := .ref 4 0) rfl (.none (.inl rfl)) rfl (.last rfl (.none (.inl rfl)) rfl))) rfl
      (.last rfl (.none (.inl rfl)) rfl)

/-- The hypotheses of `outlines` hold for it. -/
example : ∃ N items, (∀ fuel ≥ N, getOutlines demoOutlines id [(nm "Outlines", .ref 1 0)] fuel = .ok (items, none)) ∧
    List.Forall₂ (OutlineOf demoOutlines id) items ((preorderAll 1 demoNodes).filter fun x => decide (Linked x.2)) :=
  outlines demoOutlines id [(nm "Outlines", .ref 1 0)] (root := .ref 1 0) rfl rfl rfl rfl demo_items (by
    intro x hx _ t ht
    simp only [demoNodes, preorderAll, OutlineNode.preorder, List.mem_cons, List.mem_append, List.append_nil, List.not_mem_nil, or_false] at hx
    rcases hx with (rfl | rfl | rfl) | rfl <;> (cases ht; exact ⟨_, rfl⟩))

example : getOutlines demoOutlines id [(nm "Outlines", .ref 1 0)] 10 = .ok ([
    ⟨1, asc "A", some (.int 7), none, none⟩, ⟨2, asc "B", none, some (.int 8), none⟩, ⟨1, asc "D", some (.int 9), none, none⟩], none) := by
  decide +kernel

/-- C63 does not hold for items without destination and action: the titled item `C` is not reported. -/
theorem outlines_counterexample : ∃ x ∈ preorderAll 1 demoNodes, dictGet x.2 (.name (asc "Title")) = some (.str (asc "C")) ∧
    ∀ fuel ≥ 10, ∀ items, getOutlines demoOutlines id [(nm "Outlines", .ref 1 0)] fuel = .ok (items, none) → ∀ o ∈ items, o.title ≠ asc "C" := by
  refine ⟨(2, [(nm "Title", .str (asc "C"))]), by simp [demoNodes, preorderAll, OutlineNode.preorder], rfl, fun fuel hf items h => ?_⟩
  obtain ⟨f, rfl⟩ : ∃ f, fuel = f + 10 := ⟨fuel - 10, by omega⟩
  have : getOutlines demoOutlines id [(nm "Outlines", .ref 1 0)] (f + 10) = .ok ([
    ⟨1, asc "A", some (.int 7), none, none⟩, ⟨2, asc "B", none, some (.int 8), none⟩, ⟨1, asc "D", some (.int 9), none, none⟩], none) := rfl
  rw [this] at h
  cases h
  decide

/-- A name tree with two leaves. -/
def demoNames : Resolver := tableResolver
  [(1, .dict [(nm "Limits", .arr [.str (asc "a"), .str (asc "b")]), (nm "Names", .arr [.str (asc "a"), .ref 7 0, .str (asc "b"), .ref 8 0])]),
   (2, .dict [(nm "Limits", .arr [.str (asc "c"), .str (asc "e")]), (nm "Names", .arr [.str (asc "c"), .ref 9 0, .str (asc "e"), .ref 10 0])])]
def demoRoot : Dict := [(nm "Kids", .arr [.ref 1 0, .ref 2 0])]
def demoNameCat : Dict := [(nm "Names", .dict [(nm "Dests", .dict demoRoot)])]
def demoNameTree : NameTree := .node none
  [.leaf (some (asc "a", asc "b")) [(asc "a", .ref 7 0), (asc "b", .ref 8 0)], .leaf (some (asc "c", asc "e")) [(asc "c", .ref 9 0), (asc "e", .ref 10 0)]]

theorem demo_consistent : demoNameTree.Consistent := by
  refine .node (fun _ _ => trivial) (.cons (.leaf ?_ (by decide)) (by simp [NameTree.limits]) ?_ (.cons (.leaf ?_ (by decide)) (by simp [NameTree.limits]) (by simp) .nil))
  · simp only [Within]; decide
  · intro s hs k ⟨h1, h2⟩
    simp only [List.mem_cons, List.not_mem_nil, or_false] at hs
    subst hs
    simp only [Within, NameTree.limits, show asc "b" = [98] from rfl, show asc "c" = [99] from rfl] at h1 h2
    cases k with
    | nil => exact h2.1 (by simp)
    | cons x xs =>
      simp only [List.cons_lt_cons_iff, UInt8.lt_iff_toNat_lt] at h1 h2
      have a := h1.2; have b := h2.1
      simp only [not_or, UInt8.reduceToNat] at a b
      omega
  · simp only [Within]; decide

/-- The hypotheses of `destinations` hold for it. -/
example : ∃ N, ∀ fuel ≥ N, (∀ v, (asc "c", v) ∈ demoNameTree.entries → getDest demoNames demoNameCat (.str (asc "c")) fuel = .ok v) ∧
      ((∀ v, (asc "c", v) ∉ demoNameTree.entries) → dictGet demoNameCat (.name (asc "Dests")) = none →
        getDest demoNames demoNameCat (.str (asc "c")) fuel = .error .pdfDestNotFound) :=
  destinations demoNames demoNameCat demoNameTree (asc "c")
    ⟨_, _, _, _, rfl, rfl, rfl, rfl, .node rfl rfl rfl rfl (.cons rfl (.leaf ⟨_, rfl, rfl⟩ rfl rfl) (.cons rfl (.leaf ⟨_, rfl, rfl⟩ rfl rfl) .nil))⟩
    demo_consistent rfl (by
      simp only [demoNameTree, NameTree.entries, entriesAll, List.mem_cons, List.mem_append, List.append_nil, List.not_mem_nil, or_false]
      rintro e ((rfl | rfl) | rfl | rfl) <;> exact .ref _ _)

example : (asc "c", Obj.ref 9 0) ∈ demoNameTree.entries := by simp [demoNameTree, NameTree.entries, entriesAll]
example : getDest demoNames demoNameCat (.str (asc "d")) 10 = .error .pdfDestNotFound := by decide +kernel

/-- C62 does not hold for every value: below a node with children, a name with an empty value is reported as missing. -/
theorem names_counterexample :
    let root : Dict := [(nm "Kids", .arr [.dict [(nm "Limits", .arr [.str (asc "a"), .str (asc "a")]), (nm "Names", .arr [.str (asc "a"), .arr []])]])]
    ∀ fuel ≥ 2, getDest demoNames [(nm "Names", .dict [(nm "Dests", .dict root)])] (.str (asc "a")) fuel = .error .pdfDestNotFound := by
  intro root fuel hf
  obtain ⟨f, rfl⟩ : ∃ f, fuel = f + 2 := ⟨fuel - 2, by omega⟩
  rfl

/-- A name within no limits: `get_dest` returns `None` instead of raising, if the root has limits. -/
theorem root_limits_counterexample :
    let root : Dict := [(nm "Limits", .arr [.str (asc "b"), .str (asc "c")]), (nm "Names", .arr [.str (asc "b"), .ref 1 0, .str (asc "c"), .ref 2 0])]
    ∀ fuel ≥ 1, getDest demoNames [(nm "Names", .dict [(nm "Dests", .dict root)])] (.str (asc "a")) fuel = .ok .null := by
  intro root fuel hf
  obtain ⟨f, rfl⟩ : ∃ f, fuel = f + 1 := ⟨fuel - 1, by omega⟩
  rfl

end Pdf

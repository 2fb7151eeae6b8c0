import Verif.Model.Pages
import Verif.Spec.Pages
import Verif.Props.Xref
import Mathlib.Data.List.Forall2
/-! C30 page order, C31 inheritance, C32 page selection, C64 iteration. -/

namespace Pdf
open Spec

variable {α : Type}

theorem inherit_get (parent tree : List (Key × Obj)) (k : Key) :
    dictGet (inherit tree parent) k = match dictGet tree k with
      | some v => some v
      | none => if Inherited k then dictGet parent k else none := by
  induction parent generalizing tree with
  | nil => simp only [inherit, dictGet]; cases dictGet tree k <;> simp
  | cons x xs ih =>
    obtain ⟨j, v⟩ := x
    have hk : Inherited k ↔ k ∈ inheritable := Iff.rfl
    simp only [inherit]
    rw [ih]
    by_cases hj : j ∈ inheritable ∧ dictGet tree j = none
    · rw [if_pos hj, dictGet_dictSet]
      by_cases hjk : j = k
      · subst hjk
        rw [if_pos rfl, hj.2]
        simp [dictGet, hk, hj.1]
      · rw [if_neg hjk]; simp only [dictGet, if_neg hjk]
    · rw [if_neg hj]
      by_cases hjk : j = k
      · subst hjk
        cases ht : dictGet tree j with
        | some v => rfl
        | none =>
          have : ¬ Inherited j := fun h => hj ⟨h, ht⟩
          simp [this]
      · simp only [dictGet, if_neg hjk]

/-- A page that was found, and the page of the tree. -/
def SamePage (x : Int × Dict) (leaf : Int × List Dict) : Prop := x.1 = leaf.1 ∧ ∀ k, dictGet x.2 k = pageAttr leaf.2 k

theorem inherit_attr {d parent : Dict} {above : List Dict} (h : ∀ k, Inherited k → dictGet parent k = above.findSome? fun d => dictGet d k) (k : Key) :
    dictGet (inherit d parent) k = pageAttr (d :: above) k := by
  rw [inherit_get, pageAttr]
  by_cases hk : Inherited k
  · rw [if_pos hk, if_pos hk, List.findSome?_cons]
    cases dictGet d k with
    | some v => rfl
    | none => exact h k hk
  · rw [if_neg hk, if_neg hk]
    simp
    cases dictGet d k <;> rfl

theorem each_append {α β : Type} (f : α → Gen β) (x : α) (xs : List α) {ys zs} (h : f x = (ys, none)) (h2 : Gen.each f xs = (zs, none)) :
    Gen.each f (x :: xs) = (ys ++ zs, none) := by
  rw [Gen.each, h]; simp [h2]

mutual
theorem search_tree (R : Resolver) {o T} (h : IsTree R o T) (parent : Dict) (above : List Dict)
    (hp : ∀ k, Inherited k → dictGet parent k = above.findSome? fun d => dictGet d k) :
    ∃ N items, (∀ fuel ≥ N, pageSearch R fuel o parent = (items, none)) ∧ List.Forall₂ SamePage items (T.leaves above) :=
  match h with
  | .page (i := i) (g := g) (d := d) hr ht => by
    refine ⟨1, [(i, inherit d parent)], fun fuel hf => ?_, .cons ⟨rfl, inherit_attr hp⟩ .nil⟩
    obtain ⟨f, rfl⟩ : ∃ f, fuel = f + 1 := ⟨fuel - 1, by omega⟩
    have hn : pageNode R (.ref i g) = .ok (i, d) := by simp [pageNode, Resolver.dictValue, hr]
    have hty : pageType (inherit d parent) = some (.name (asc "Page")) := by
      unfold pageType nm
      rw [inherit_get, ht]; rfl
    rw [pageSearch, hn]
    dsimp only
    rw [hty]
    cases dictGet (inherit d parent) (nm "Kids") with
    | none => dsimp only; rw [if_pos rfl]
    | some ks => dsimp only; rw [if_neg (by decide), if_pos rfl]
  | .pages (i := i) (g := g) (d := d) (kids := kids) (l := l) (ts := ts) hr ht hk hl hts => by
    obtain ⟨N, items, h1, h2⟩ := search_trees R hts (inherit d parent) (d :: above) (fun k hk => by rw [inherit_attr hp, pageAttr, if_pos hk])
    refine ⟨N + 1, items, fun fuel hf => ?_, h2⟩
    obtain ⟨f, rfl⟩ : ∃ f, fuel = f + 1 := ⟨fuel - 1, by omega⟩
    have hn : pageNode R (.ref i g) = .ok (i, d) := by simp [pageNode, Resolver.dictValue, hr]
    have hty : pageType (inherit d parent) = some (.name (asc "Pages")) := by
      unfold pageType nm
      rw [inherit_get, ht]; rfl
    have hks : dictGet (inherit d parent) (nm "Kids") = some kids := by unfold nm; rw [inherit_get, hk]
    rw [pageSearch, hn]
    dsimp only
    rw [hty, hks]
    dsimp only
    rw [if_pos rfl]
    simp only [Resolver.listValue, hl]
    exact h1 f (by omega)
theorem search_trees (R : Resolver) {os Ts} (h : IsTrees R os Ts) (parent : Dict) (above : List Dict)
    (hp : ∀ k, Inherited k → dictGet parent k = above.findSome? fun d => dictGet d k) :
    ∃ N items, (∀ fuel ≥ N, Gen.each (fun c => pageSearch R fuel c parent) os = (items, none)) ∧ List.Forall₂ SamePage items (leavesAll above Ts) :=
  match h with
  | .nil => ⟨0, [], fun _ _ => rfl, .nil⟩
  | .cons h1 h2 => by
    obtain ⟨N1, x1, a1, b1⟩ := search_tree R h1 parent above hp
    obtain ⟨N2, x2, a2, b2⟩ := search_trees R h2 parent above hp
    exact ⟨N1 + N2, x1 ++ x2, fun fuel hf => each_append _ _ _ (a1 fuel (by omega)) (a2 fuel (by omega)), List.rel_append b1 b2⟩
end

/-- A page object and the page of the tree it stands for: number, box, rotation and resources as written in the page or inherited from the
nearest ancestor that has them; the contents are the page's own. -/
structure PageOf (R : Resolver) (p : Page) (leaf : Int × List Dict) : Prop where
  id : p.pageid = leaf.1
  media : ∃ o, pageAttr leaf.2 (.name (asc "MediaBox")) = some o ∧ R.resolve1 o = .ok p.mediabox
  crop : match pageAttr leaf.2 (.name (asc "CropBox")) with
    | some o => R.resolve1 o = .ok p.cropbox
    | none => p.cropbox = p.mediabox
  rotate : 0 ≤ p.rotate ∧ p.rotate < 360
  rotation : ∃ n, R.intValue ((pageAttr leaf.2 (.name (asc "Rotate"))).getD (.int 0)) = .ok n ∧ (360 : Int) ∣ p.rotate - n
  resources : R.resolve1 ((pageAttr leaf.2 (.name (asc "Resources"))).getD (.dict [])) = .ok p.resources
  contents : match leaf.2.head?.bind fun d => dictGet d (.name (asc "Contents")) with
    | some o => ∃ c, R.resolve1 o = .ok c ∧ p.contents = streamsOf c
    | none => p.contents = []

theorem mkPage_ok (R : Resolver) (hd : ∀ o, (∀ i g, o ≠ .ref i g) → R.resolve1 o = .ok o) (x : Int × Dict) (leaf : Int × List Dict)
    (hl : ∀ k o, pageAttr leaf.2 k = some o → ∃ v, R.resolve1 o = .ok v) (h : SamePage x leaf) (hm : pageAttr leaf.2 (.name (asc "MediaBox")) ≠ none) : ∃ p, mkPage R x.1 x.2 = .ok p ∧ PageOf R p leaf := by
  obtain ⟨id, ds⟩ := leaf
  obtain ⟨hid, ha⟩ := h
  dsimp only at hid ha hm ⊢
  dsimp only at hl
  have hR : ∀ k o, dictGet x.2 k = some o → ∃ v, R.resolve1 o = .ok v := fun k o h => hl k o (by rw [← ha]; exact h)
  have hget : ∀ k o, (∀ i g, o ≠ .ref i g) → ∃ v, R.resolve1 ((dictGet x.2 k).getD o) = .ok v := by
    intro k o ho
    cases hk : dictGet x.2 k with
    | none => exact ⟨o, hd o ho⟩
    | some v => exact hR k v hk
  have hint : ∀ o v, R.resolve1 o = .ok v → ∃ n, R.intValue o = .ok n := by
    intro o v hv
    unfold Resolver.intValue
    rw [hv]
    cases v <;> exact ⟨_, rfl⟩
  obtain ⟨lm, h1⟩ := hget (nm "LastModified") .null (by simp)
  obtain ⟨rs, h2⟩ := hget (nm "Resources") (.dict []) (by simp)
  obtain ⟨mo, hmo⟩ := Option.ne_none_iff_exists'.1 hm
  obtain ⟨mb, h3⟩ := hl _ mo hmo
  obtain ⟨v4, h4'⟩ := hget (nm "Rotate") (.int 0) (by simp)
  obtain ⟨n, h4⟩ := hint _ v4 h4'
  have hcrop : ∃ c, cropOf R x.2 mb = .ok c := by
    unfold cropOf
    cases hk : dictGet x.2 (nm "CropBox") with
    | none => exact ⟨_, rfl⟩
    | some o => exact hR _ o hk
  obtain ⟨c, h5⟩ := hcrop
  have hcon : ∃ c, contentsOf R x.2 = .ok c := by
    unfold contentsOf
    cases hk : dictGet x.2 (nm "Contents") with
    | none => exact ⟨_, rfl⟩
    | some o =>
      obtain ⟨v, hv⟩ := hR _ o hk
      dsimp only
      rw [hv]; exact ⟨_, rfl⟩
  obtain ⟨co, h6⟩ := hcon
  refine ⟨⟨x.1, x.2, lm, rs, mb, c, (n + 360) % 360, co⟩, ?_, ?_⟩
  · have hmb : dictGet x.2 (nm "MediaBox") = some mo := by unfold nm; rw [ha]; exact hmo
    unfold mkPage
    simp only [mediaOf, h1, h2, hmb, h3, h4, h5, h6, bind, Except.bind]
  · refine ⟨hid, ⟨mo, hmo, h3⟩, ?_, ?_, ⟨n, ?_, ?_⟩, ?_, ?_⟩
    · have := ha (.name (asc "CropBox"))
      rw [← this]
      unfold cropOf at h5
      change (match dictGet x.2 (nm "CropBox") with | some o => _ | none => _)
      cases hx : dictGet x.2 (nm "CropBox") with
      | none => rw [hx] at h5; simpa using h5.symm
      | some o => rw [hx] at h5; exact h5
    · dsimp only; omega
    · rw [← ha]; exact h4
    · dsimp only; omega
    · rw [← ha]; exact h2
    · have hc := ha (.name (asc "Contents"))
      rw [pageAttr, if_neg (by decide)] at hc
      dsimp only at hc ⊢
      rw [← hc]
      unfold contentsOf at h6
      change (match dictGet x.2 (nm "Contents") with | some o => _ | none => _)
      cases hx : dictGet x.2 (nm "Contents") with
      | none => rw [hx] at h6; simpa using h6.symm
      | some o =>
        rw [hx] at h6
        obtain ⟨v, hv⟩ := hR _ o hx
        dsimp only at h6 ⊢
        rw [hv] at h6
        refine ⟨v, hv, ?_⟩
        simp only [Except.ok.injEq] at h6
        rw [← h6]
        cases v <;> rfl

theorem mapE_ok {α β γ : Type} (f : α → Except PyErr β) {P : α → γ → Prop} {Q : β → γ → Prop} (xs : List α) (cs : List γ) (h : List.Forall₂ P xs cs)
    (hf : ∀ x c, c ∈ cs → P x c → ∃ y, f x = .ok y ∧ Q y c) : ∃ ys, Gen.mapE f xs none = (ys, none) ∧ List.Forall₂ Q ys cs := by
  induction h with
  | nil => exact ⟨[], rfl, .nil⟩
  | @cons x c xs cs hx hxs ih =>
    obtain ⟨y, h1, h2⟩ := hf x c (by simp) hx
    obtain ⟨ys, h3, h4⟩ := ih fun x c hc => hf x c (by simp [hc])
    refine ⟨y :: ys, ?_, .cons h2 h4⟩
    rw [Gen.mapE, h1]
    dsimp only
    rw [h3]

/-- C30, C31. For every page tree: the pages are its leaves, in document order, each once, with the attributes of the page or, for
`Resources`, `MediaBox`, `CropBox` and `Rotate`, of the nearest ancestor that has them (the document catalog counts as the
outermost ancestor). -/
theorem pages_of_tree (R : Resolver) (hd : ∀ o, (∀ i g, o ≠ .ref i g) → R.resolve1 o = .ok o) (catalog : Dict) (o : Obj) (T : PageTree)
    (hc : dictGet catalog (.name (asc "Pages")) = some o) (hT : IsTree R o T) (hne : T.leaves [catalog] ≠ [])
    (hR : ∀ leaf ∈ T.leaves [catalog], ∀ k o, pageAttr leaf.2 k = some o → ∃ v, R.resolve1 o = .ok v)
    (hm : ∀ leaf ∈ T.leaves [catalog], pageAttr leaf.2 (.name (asc "MediaBox")) ≠ none) :
    ∃ N ps, (∀ objids, ∀ fuel ≥ N, createPages R catalog objids fuel = (ps, none)) ∧ List.Forall₂ (PageOf R) ps (T.leaves [catalog]) := by
  have hcat : ∀ k, Inherited k → dictGet catalog k = [catalog].findSome? fun d => dictGet d k := by
    intro k _
    rw [List.findSome?_cons]
    cases dictGet catalog k <;> rfl
  obtain ⟨N, items, h1, h2⟩ := search_tree R hT catalog [catalog] hcat
  obtain ⟨ps, h3, h4⟩ := mapE_ok (fun x => mkPage R x.1 x.2) items _ h2 fun x c hc hx => mkPage_ok R hd x c (hR c hc) hx (hm c hc)
  refine ⟨N, ps, fun objids fuel hf => ?_, h4⟩
  unfold createPages
  rw [show dictGet catalog (nm "Pages") = some o from hc]
  dsimp only
  rw [h1 fuel hf]
  dsimp only
  rw [h3]
  rw [if_neg]
  rintro ⟨h, -⟩
  dsimp only at h
  subst h
  exact hne (List.forall₂_nil_left_iff.1 h4)

/-- A document with the page tree 1 = [2 = [4], 3]: page 4 has its own box and inherits the rotation of node 2; page 3 inherits the box of node 1. -/
def demoPages : Resolver where
  resolve1
    | .ref 1 _ => .ok (.dict [(nm "Type", .name (asc "Pages")), (nm "MediaBox", .int 1), (nm "Kids", .arr [.ref 2 0, .ref 3 0])])
    | .ref 2 _ => .ok (.dict [(nm "Type", .name (asc "Pages")), (nm "Rotate", .int (-90)), (nm "Kids", .ref 5 0)])
    | .ref 3 _ => .ok (.dict [(nm "Type", .name (asc "Page"))])
    | .ref 4 _ => .ok (.dict [(nm "Type", .name (asc "Page")), (nm "MediaBox", .int 4)])
    | .ref 5 _ => .ok (.arr [.ref 4 0])
    | .ref _ _ => .ok .null
    | o => .ok o
  getobj _ := .error .pdfObjectNotFound

/-- The hypotheses of `pages_of_tree` are met. -/
theorem demo_tree : IsTree demoPages (.ref 1 0) (.pages [(nm "Type", .name (asc "Pages")), (nm "MediaBox", .int 1), (nm "Kids", .arr [.ref 2 0, .ref 3 0])]
    [.pages [(nm "Type", .name (asc "Pages")), (nm "Rotate", .int (-90)), (nm "Kids", .ref 5 0)]
      [.page 4 [(nm "Type", .name (asc "Page")), (nm "MediaBox", .int 4)]], .page 3 [(nm "Type", .name (asc "Page"))]]) := by
  refine .pages rfl (by decide) (kids := .arr [.ref 2 0, .ref 3 0]) (by decide) rfl ?_
  refine .cons (.pages rfl (by decide) (kids := .ref 5 0) (by decide) rfl ?_) (.cons (.page rfl (by decide)) .nil)
  exact .cons (.page rfl (by decide)) .nil

example : ((createPages demoPages [(nm "Pages", .ref 1 0)] [] 5).1.map fun p => (p.pageid, p.mediabox, p.rotate)) = [(4, .int 4, 270), (3, .int 1, 0)] ∧
    (createPages demoPages [(nm "Pages", .ref 1 0)] [] 5).2 = none := by decide +kernel

example : ∃ N ps, (∀ fuel ≥ N, createPages demoPages [(nm "Pages", .ref 1 0)] [] fuel = (ps, none)) ∧ ps.map Page.pageid = [4, 3] := by
  obtain ⟨N, ps, h1, h2⟩ := pages_of_tree demoPages (by intro o h; unfold demoPages; dsimp only; split <;> first | rfl | exact absurd rfl (h _ _))
    [(nm "Pages", .ref 1 0)] (.ref 1 0) _
    (by decide) demo_tree (by decide) (by intro leaf _ k o _; unfold demoPages; dsimp only; split <;> exact ⟨_, rfl⟩) (by decide)
  refine ⟨N, ps, h1 [], ?_⟩
  simp only [PageTree.leaves, leavesAll, List.append_nil, List.cons_append, List.nil_append] at h2
  cases h2 with
  | cons a h2 =>
    cases h2 with
    | cons b h2 =>
      cases h2
      simp [a.id, b.id]

/-- C30: a document whose catalog has no page tree: the pages are the objects of type `Page`, in the order of the cross-reference
sections; missing objects are skipped. -/
theorem pages_without_tree (R : Resolver) (catalog : Dict) (objids : List Int) (fuel : Nat) (hc : dictGet catalog (.name (asc "Pages")) = none) (ps : List Page)
    (h : List.Forall₂ (fun i (p : Option Page) =>
        (∃ d, R.getobj i = .ok (.dict d) ∧ dictGet d (.name (asc "Type")) = some (.name (asc "Page")) ∧ ∃ q, p = some q ∧ mkPage R i d = .ok q) ∨
        (p = none ∧ ((∃ o, R.getobj i = .ok o ∧ ∀ d, o = .dict d → dictGet d (.name (asc "Type")) ≠ some (.name (asc "Page"))) ∨
          R.getobj i = .error .pdfObjectNotFound)))
      objids (rs : List (Option Page))) (hps : ps = rs.filterMap id) :
    createPages R catalog objids fuel = (ps, none) := by
  unfold createPages
  rw [show dictGet catalog (nm "Pages") = none from hc]
  dsimp only
  rw [if_pos ⟨rfl, rfl⟩]
  subst hps
  induction h with
  | nil => rfl
  | @cons i p is ps hx hxs ih =>
    rw [scanPages]
    rcases hx with ⟨d, h1, h2, q, rfl, h3⟩ | ⟨rfl, ⟨o, h1, h2⟩ | h1⟩
    · rw [h1]
      dsimp only
      rw [if_pos (show dictGet d (nm "Type") = _ from h2), h3]
      dsimp only
      rw [ih]
      rfl
    · rw [h1]
      cases o with
      | dict d => dsimp only; rw [if_neg (show ¬ dictGet d (nm "Type") = _ from h2 d rfl)]; exact ih
      | _ => exact ih
    · rw [h1]
      dsimp only
      rw [if_pos rfl]
      exact ih

/-! ### Selection of pages -/

/-- Page number `i` is asked for: no numbers are given, or it is among them. -/
def Spec.Wanted (pagenos : List Int) (i : Nat) : Prop := pagenos = [] ∨ (i : Int) ∈ pagenos
instance (pagenos i) : Decidable (Wanted pagenos i) := by unfold Wanted; infer_instance

theorem selectFrom_exact (pagenos : List Int) (maxpages : Nat) (ps : List α) (e : Option PyErr) (n : Nat) :
    (selectFrom pagenos maxpages n ps e).1 =
      ((ps.zipIdx n).filter fun x => decide (Wanted pagenos x.2 ∧ ∀ j < x.2, n ≤ j → Wanted pagenos j → maxpages = 0 ∨ j + 1 < maxpages)).map Prod.fst := by
  induction ps generalizing n with
  | nil => rfl
  | cons p ps ih =>
    rw [selectFrom, List.zipIdx_cons]
    by_cases hw : Wanted pagenos n
    · have hc : ¬ (pagenos ≠ [] ∧ (n : Int) ∉ pagenos) := by
        unfold Wanted at hw
        rintro ⟨h1, h2⟩
        rcases hw with h | h <;> contradiction
      rw [if_neg hc, List.filter_cons_of_pos (by simp [hw]; omega)]
      by_cases hm : (maxpages : Int) ≠ 0 ∧ (maxpages : Int) ≤ n + 1
      · rw [if_pos hm]
        rw [List.filter_eq_nil_iff.2 ?_]
        · rfl
        · intro x hx
          have := List.fst_mem_of_mem_zipIdx hx
          obtain ⟨x, i⟩ := x
          have hi : n + 1 ≤ i := (List.mem_zipIdx hx).1
          simp only [decide_eq_true_eq, not_and, not_forall]
          intro _
          refine ⟨n, by omega, by omega, hw, by omega⟩
      · rw [if_neg hm, ih]
        simp only [List.map_cons]
        congr 2
        apply List.filter_congr
        intro x hx
        obtain ⟨x, i⟩ := x
        have hi : n + 1 ≤ i := (List.mem_zipIdx hx).1
        dsimp only
        rw [decide_eq_decide]
        refine and_congr_right fun _ => ⟨fun h j h1 h2 h3 => ?_, fun h j h1 h2 h3 => h j h1 (by omega) h3⟩
        by_cases hj : j = n
        · subst hj; omega
        · exact h j h1 (by omega) h3
    · have hc : pagenos ≠ [] ∧ (n : Int) ∉ pagenos := by
        unfold Wanted at hw
        exact not_or.1 hw
      rw [if_pos hc, List.filter_cons_of_neg (by simp [hw]), ih]
      congr 1
      apply List.filter_congr
      intro x hx
      rw [decide_eq_decide]
      refine and_congr_right fun _ => ⟨fun h j h1 h2 h3 => ?_, fun h j h1 h2 h3 => h j h1 (by omega) h3⟩
      by_cases hj : j = n
      · subst hj; exact absurd h3 hw
      · exact h j h1 (by omega) h3

/-- C32, exactly: the pages yielded are those asked for, in document order, up to and including the first one that is asked for and has a
number of at least `maxpages - 1`. -/
theorem select_exact (pagenos : List Int) (maxpages : Nat) (ps : List α) (e : Option PyErr) :
    (selectPages pagenos maxpages (ps, e)).1 =
      (ps.zipIdx.filter fun x => decide (Wanted pagenos x.2 ∧ ∀ j < x.2, Wanted pagenos j → maxpages = 0 ∨ j + 1 < maxpages)).map Prod.fst := by
  unfold selectPages
  rw [selectFrom_exact]
  simp

/-- C32: the pages asked for among the first `maxpages`. Missing: a set of page numbers that has some beyond `maxpages` but not
`maxpages - 1` itself (see `select_counterexample`). -/
theorem select_partial (pagenos : List Int) (maxpages : Nat) (ps : List α) (e : Option PyErr)
    (h : maxpages = 0 ∨ Wanted pagenos (maxpages - 1) ∨ ∀ i, Wanted pagenos i → i < maxpages) :
    (selectPages pagenos maxpages (ps, e)).1 =
      (ps.zipIdx.filter fun x => decide (Wanted pagenos x.2 ∧ (maxpages = 0 ∨ x.2 < maxpages))).map Prod.fst := by
  rw [select_exact]
  congr 1
  apply List.filter_congr
  intro x _
  rw [decide_eq_decide]
  refine and_congr_right fun hw => ⟨fun hx => ?_, fun hx j hj hwj => by omega⟩
  rcases h with h | h | h
  · exact Or.inl h
  · by_cases h0 : maxpages = 0
    · exact Or.inl h0
    · by_cases hlt : x.2 < maxpages
      · exact Or.inr hlt
      · have := hx (maxpages - 1) (by omega) h
        omega
  · exact Or.inr (h _ hw)

/-- Without page numbers: the first `maxpages` pages. -/
theorem select_first (maxpages : Nat) (hm : 0 < maxpages) (ps : List α) (e : Option PyErr) :
    (selectPages [] maxpages (ps, e)).1 = ps.take maxpages := by
  have : ∀ (ps : List α) (n : Nat), n < maxpages → (selectFrom [] maxpages n ps e).1 = ps.take (maxpages - n) := by
    intro ps
    induction ps with
    | nil => intro n _; simp [selectFrom]
    | cons p ps ih =>
      intro n hn
      rw [selectFrom, if_neg (by simp)]
      split
      · rw [show maxpages - n = 1 by omega]; rfl
      · rw [show maxpages - n = (maxpages - (n + 1)) + 1 by omega, List.take_succ_cons, ih _ (by omega)]
  exact this ps 0 hm

/-- C32 fails in general: asked for page 5 among the first 3 pages, page 5 is yielded. -/
theorem select_counterexample : (selectPages [5] 3 (([0, 1, 2, 3, 4, 5, 6] : List Nat), none)).1 = [5] := by decide

/-- `select_partial` on a document of five pages. -/
example : (selectPages [3, 0, 2, 4] 3 (([10, 11, 12, 13, 14] : List Nat), none)).1 = [10, 12] := by
  exact (select_partial [3, 0, 2, 4] 3 [10, 11, 12, 13, 14] none (Or.inr (Or.inl (by decide)))).trans (by decide)

/-- An exception after the last page is raised if the loop is not left before: here page 1 is the last one of interest. -/
theorem select_error (pagenos : List Int) (ps : List α) (e : PyErr) : (selectPages pagenos 0 (ps, some e)).2 = some e := by
  have : ∀ (ps : List α) (n : Nat), (selectFrom pagenos 0 n ps (some e)).2 = some e := by
    intro ps
    induction ps with
    | nil => intro n; rfl
    | cons p ps ih =>
      intro n
      rw [selectFrom]
      split
      · exact ih _
      · rw [if_neg (by simp)]; exact ih _
  exact this ps 0

/-! ### Iteration -/

/-- A history: each entry names the iterator on which `next` is called. -/
def runIters (I : Interp α) (its : Nat → Iter α) : List Nat → List (Nat × Step α)
  | [] => []
  | a :: ops =>
    let r := I.next (its a)
    (a, r.1) :: runIters r.2.1 (fun b => if b = a then r.2.2 else its b) ops

/-- What call number `k` of `next` gives if the pages are `ps`. -/
def Spec.outcome (ps : List α) (k : Nat) : Step α :=
  match ps[k]? with
  | some p => .item (k, p)
  | none => .stop

/-- The interpreter after a complete iteration. -/
def Loaded (I : Interp α) : Prop := I.file.2 = none ∧ I.file.1 ≠ [] ∧ I.pages = I.file.1.zipIdx.map fun x => (x.2, x.1)

def Iter.offset (len : Nat) : Iter α → Option Nat
  | .fresh => some 0
  | .listing i => some i
  | .loading _ _ => none
  | .finished => some len

theorem loaded_next {I : Interp α} (h : Loaded I) (it : Iter α) (k : Nat) (hk : it.offset I.file.1.length = some k) :
    (I.next it).1 = outcome I.file.1 k ∧ (I.next it).2.1 = I ∧
      (I.next it).2.2.offset I.file.1.length = some (if k < I.file.1.length then k + 1 else I.file.1.length) := by
  obtain ⟨h1, h2, h3⟩ := h
  have hne : I.pages ≠ [] := by
    rw [h3]; intro h; apply h2; simpa using h
  have hl : ∀ i, I.list i = (match I.file.1[i]? with
      | some p => (.item (i, p), I, .listing (i + 1))
      | none => (.stop, I, .finished)) := by
    intro i
    unfold Interp.list
    rw [h3]
    simp only [List.getElem?_map, List.getElem?_zipIdx, Nat.zero_add]
    cases I.file.1[i]? <;> rfl
  have key : ∀ i, (I.list i).1 = outcome I.file.1 i ∧ (I.list i).2.1 = I ∧
      (I.list i).2.2.offset I.file.1.length = some (if i < I.file.1.length then i + 1 else I.file.1.length) := by
    intro i
    rw [hl, outcome]
    by_cases hi : i < I.file.1.length
    · rw [List.getElem?_eq_getElem hi, if_pos hi]; exact ⟨rfl, rfl, rfl⟩
    · rw [List.getElem?_eq_none (by omega), if_neg hi]; exact ⟨rfl, rfl, rfl⟩
  cases it with
  | fresh =>
    obtain rfl : 0 = k := by simpa [Iter.offset] using hk
    unfold Interp.next
    rw [if_neg hne]
    exact key 0
  | listing i =>
    obtain rfl : i = k := by simpa [Iter.offset] using hk
    exact key i
  | loading r n => simp [Iter.offset] at hk
  | finished =>
    obtain rfl : I.file.1.length = k := by simpa [Iter.offset] using hk
    rw [outcome, List.getElem?_eq_none (by omega), if_neg (by omega)]
    exact ⟨rfl, rfl, rfl⟩

theorem outcome_past (ps : List α) (k : Nat) (h : ps.length ≤ k) : outcome ps k = .stop := by
  rw [outcome, List.getElem?_eq_none h]

theorem runIters_loaded {I : Interp α} (h : Loaded I) (ops : List Nat) (its : Nat → Iter α) (a k : Nat) (hits : ∀ b, ∃ k, (its b).offset I.file.1.length = some k)
    (hk : (its a).offset I.file.1.length = some k) :
    ((runIters I its ops).filter fun x => x.1 = a).map Prod.snd = (List.range (ops.count a)).map fun j => outcome I.file.1 (k + j) := by
  induction ops generalizing its k with
  | nil => rfl
  | cons b ops ih =>
    obtain ⟨kb, hkb⟩ := hits b
    obtain ⟨h1, h2, h3⟩ := loaded_next h (its b) kb hkb
    have hits' : ∀ c, ∃ k, (if c = b then (I.next (its b)).2.2 else its c).offset I.file.1.length = some k := by
      intro c
      by_cases hc : c = b
      · rw [if_pos hc]; exact ⟨_, h3⟩
      · rw [if_neg hc]; exact hits c
    rw [runIters, h2]
    by_cases hb : b = a
    · subst hb
      rw [hk, Option.some.injEq] at hkb
      subst hkb
      rw [List.filter_cons_of_pos (by simp), List.map_cons, List.count_cons_self, List.range_succ_eq_map, List.map_cons, List.map_map, h1]
      rw [ih _ (if k < I.file.1.length then k + 1 else I.file.1.length) hits' (by rw [if_pos rfl]; exact h3)]
      congr 1
      apply List.map_congr_left
      intro j _
      by_cases hlt : k < I.file.1.length
      · rw [if_pos hlt, Function.comp, Nat.succ_eq_add_one]; congr 1; omega
      · rw [if_neg hlt, Function.comp, outcome_past _ _ (by omega), outcome_past _ _ (by omega)]
    · rw [List.filter_cons_of_neg (by simp [hb]), List.count_cons_of_ne hb]
      exact ih _ k hits' (by rw [if_neg (Ne.symm hb)]; exact hk)

/-- C64. After a complete iteration (or with `preload`), any number of iterations, in any interleaving: call number `k` of `next` of each of them
gives page `k` of the document, and the end after the last one. -/
theorem iterations_repeat {I : Interp α} (h : Loaded I) (ops : List Nat) (a : Nat) :
    ((runIters I (fun _ => .fresh) ops).filter fun x => x.1 = a).map Prod.snd = (List.range (ops.count a)).map (outcome I.file.1) := by
  have := runIters_loaded h ops (fun _ => .fresh) a 0 (fun b => ⟨0, rfl⟩) rfl
  simpa using this

/-- `k` calls of `next` on one iterator: the outcomes and the state after them. -/
def nexts (I : Interp α) (it : Iter α) : Nat → List (Step α) × Interp α × Iter α
  | 0 => ([], I, it)
  | n + 1 =>
    let r := I.next it
    let s := nexts r.2.1 r.2.2 n
    (r.1 :: s.1, s.2)

theorem nexts_loading (file : Gen α) (hf : file.2 = none) (done rest : List α) (hne : done ++ rest ≠ []) (hfile : file.1 = done ++ rest) :
    nexts ⟨file, done.zipIdx.map fun x => (x.2, x.1)⟩ (.loading rest done.length) (rest.length + 1) =
      ((List.range (rest.length + 1)).map (fun j => outcome file.1 (done.length + j)), ⟨file, file.1.zipIdx.map fun x => (x.2, x.1)⟩, .finished) := by
  induction rest generalizing done with
  | nil =>
    rw [List.append_nil] at hne hfile
    simp only [List.length_nil, Nat.zero_add, nexts, Interp.next, Interp.load, hf]
    rw [if_neg (by simpa using hne)]
    simp [hfile, outcome]
  | cons p ps ih =>
    have h1 := ih (done ++ [p]) (by simp) (by rw [hfile]; simp)
    rw [List.length_append, List.length_singleton] at h1
    rw [List.length_cons, nexts]
    simp only [Interp.next, Interp.load]
    have hz : (done.zipIdx.map fun x => (x.2, x.1)) ++ [(done.length, p)] = (done ++ [p]).zipIdx.map fun x => (x.2, x.1) := by
      rw [List.zipIdx_append]; simp
    rw [hz, h1, List.range_succ_eq_map (n := ps.length + 1), List.map_cons, List.map_map]
    congr 1
    congr 1
    · rw [outcome, hfile]; simp
    · apply List.map_congr_left
      intro j _
      rw [Function.comp]
      congr 1
      omega

/-- C64: the first iteration, run to its end, gives all pages numbered from 0, and leaves the interpreter loaded. -/
theorem first_iteration (file : Gen α) (hf : file.2 = none) (hne : file.1 ≠ []) :
    (nexts ⟨file, []⟩ .fresh (file.1.length + 1)).1 = (List.range (file.1.length + 1)).map (outcome file.1) ∧
      Loaded (nexts ⟨file, []⟩ .fresh (file.1.length + 1)).2.1 := by
  have h := nexts_loading file hf [] file.1 hne rfl
  have h2 : nexts ⟨file, []⟩ .fresh (file.1.length + 1) = nexts ⟨file, []⟩ (.loading file.1 0) (file.1.length + 1) := by
    simp [nexts, Interp.next]
  have h3 : nexts ⟨file, []⟩ .fresh (file.1.length + 1) = _ := h2.trans h
  rw [h3]
  exact ⟨by simp, hf, hne, rfl⟩

/-- A document without pages raises `EmptyDocumentError`, at every iteration. -/
theorem empty_document (I : Interp α) (h : I.file = ([], none)) (hp : I.pages = []) : I.next .fresh = (.raise .emptyDocument, I, .finished) := by
  simp [Interp.next, Interp.load, h, hp]

/-- C64 fails if the first iteration is abandoned: the next one gives only the page that was loaded. -/
theorem abandoned_iteration : runIters ⟨([7, 8, 9], none), []⟩ (fun _ => .fresh) [0, 1, 1] = [(0, .item (0, 7)), (1, .item (0, 7)), (1, .stop)] := by decide

/-- The pages among the outcomes. -/
def items : List (Step α) → List (Nat × α)
  | [] => []
  | .item x :: r => x :: items r
  | _ :: r => items r

/-- The pages that the iterator has given so far. -/
def Iter.given (m : Nat) : Iter α → Nat
  | .fresh => 0
  | .listing i => i
  | .loading _ _ => m
  | .finished => 0

structure Iterating (I : Interp α) (its : Nat → Iter α) (m : Nat) : Prop where
  pages : I.pages = (I.file.1.take m).zipIdx.map fun x => (x.2, x.1)
  le : m ≤ I.file.1.length
  loader : ∀ b rest n, its b = .loading rest n → n = m ∧ rest = I.file.1.drop m ∧ 0 < m
  one : ∀ b c rest n rest' n', its b = .loading rest n → its c = .loading rest' n' → b = c
  zero : m = 0 → ∀ b, its b = .fresh ∨ its b = .finished

theorem step_items (I : Interp α) (its : Nat → Iter α) (m a : Nat) (h : Iterating I its m) :
    ∃ m', Iterating (I.next (its a)).2.1 (fun b => if b = a then (I.next (its a)).2.2 else its b) m' ∧ (I.next (its a)).2.1.file = I.file ∧
      (∀ b, b ≠ a → (its b).given m' = (its b).given m) ∧
      (its a = .finished → (I.next (its a)) = (.stop, I, .finished)) ∧
      (((∃ p, (I.next (its a)).1 = .item ((its a).given m, p) ∧ I.file.1[(its a).given m]? = some p) ∧ (I.next (its a)).2.2.given m' = (its a).given m + 1 ∧
          (I.next (its a)).2.2 ≠ .finished) ∨
        ((∀ x, (I.next (its a)).1 ≠ .item x) ∧ (I.next (its a)).2.2 = .finished)) := by
  have hpl : I.pages.length = m := by rw [h.pages]; simp [h.le]
  have hlist : ∀ i, (its a).given m = i → (∀ r n, its a ≠ .loading r n) → I.next (its a) = I.list i → 
      ∃ m', Iterating (I.next (its a)).2.1 (fun b => if b = a then (I.next (its a)).2.2 else its b) m' ∧ (I.next (its a)).2.1.file = I.file ∧
      (∀ b, b ≠ a → (its b).given m' = (its b).given m) ∧
      (its a = .finished → (I.next (its a)) = (.stop, I, .finished)) ∧
      (((∃ p, (I.next (its a)).1 = .item ((its a).given m, p) ∧ I.file.1[(its a).given m]? = some p) ∧ (I.next (its a)).2.2.given m' = (its a).given m + 1 ∧
          (I.next (its a)).2.2 ≠ .finished) ∨
        ((∀ x, (I.next (its a)).1 ≠ .item x) ∧ (I.next (its a)).2.2 = .finished)) := by
    intro i hi hnl hn
    refine ⟨m, ?_⟩
    rw [hn, hi]
    unfold Interp.list
    cases hg : I.pages[i]? with
    | none =>
      refine ⟨⟨h.pages, h.le, ?_, ?_, ?_⟩, rfl, fun _ _ => rfl, fun _ => rfl, Or.inr ⟨by simp, rfl⟩⟩
      · intro b rest n hb
        dsimp only at hb
        split at hb
        · cases hb
        · exact h.loader b rest n hb
      · intro b c rest n rest' n' hb hc
        dsimp only at hb hc
        split at hb
        · cases hb
        · split at hc
          · cases hc
          · exact h.one b c _ _ _ _ hb hc
      · intro hm b
        dsimp only
        split
        · exact Or.inr rfl
        · exact h.zero hm b
    | some x =>
      have hi2 : i < m := by
        rw [← hpl]; exact (List.getElem?_eq_some_iff.1 hg).1
      obtain ⟨p, hp, rfl⟩ : ∃ p, I.file.1[i]? = some p ∧ x = (i, p) := by
        rw [h.pages] at hg
        simp only [List.getElem?_map, List.getElem?_zipIdx, Nat.zero_add, List.getElem?_take, if_pos hi2] at hg
        cases hf : I.file.1[i]? with
        | none => rw [hf] at hg; simp at hg
        | some p => rw [hf] at hg; simp at hg; exact ⟨p, rfl, hg.symm⟩
      refine ⟨⟨h.pages, h.le, ?_, ?_, ?_⟩, rfl, fun _ _ => rfl, ?_, Or.inl ⟨⟨p, rfl, hp⟩, rfl, by simp⟩⟩
      · intro b rest n hb
        dsimp only at hb
        split at hb
        · cases hb
        · exact h.loader b rest n hb
      · intro b c rest n rest' n' hb hc
        dsimp only at hb hc
        split at hb
        · cases hb
        · split at hc
          · cases hc
          · exact h.one b c _ _ _ _ hb hc
      · intro hm; omega
      · intro hfin
        rw [hfin] at hn
        simp only [Interp.next, Interp.list, hg] at hn
        cases hn
  have hload : ∀ rest, rest = I.file.1.drop m → (its a).given m = m → (its a ≠ .finished) → (∀ b rest n, its b = .loading rest n → b = a) → (∀ b, b ≠ a → ∀ i, its b = .listing i → 0 < m) →
      I.next (its a) = I.load rest m →
      ∃ m', Iterating (I.next (its a)).2.1 (fun b => if b = a then (I.next (its a)).2.2 else its b) m' ∧ (I.next (its a)).2.1.file = I.file ∧
      (∀ b, b ≠ a → (its b).given m' = (its b).given m) ∧
      (its a = .finished → (I.next (its a)) = (.stop, I, .finished)) ∧
      (((∃ p, (I.next (its a)).1 = .item ((its a).given m, p) ∧ I.file.1[(its a).given m]? = some p) ∧ (I.next (its a)).2.2.given m' = (its a).given m + 1 ∧
          (I.next (its a)).2.2 ≠ .finished) ∨
        ((∀ x, (I.next (its a)).1 ≠ .item x) ∧ (I.next (its a)).2.2 = .finished)) := by
    intro rest hr hg hnf hone _ hn
    rw [hn, hg]
    cases rest with
    | nil =>
      refine ⟨m, ?_⟩
      have : ∃ st, I.load [] m = (st, I, .finished) ∧ ∀ x, st ≠ .item x := by
        unfold Interp.load
        dsimp only
        cases I.file.2 with
        | some e => exact ⟨_, rfl, by simp⟩
        | none =>
          dsimp only
          split
          · exact ⟨_, rfl, by simp⟩
          · exact ⟨_, rfl, by simp⟩
      obtain ⟨st, h1, h2⟩ := this
      rw [h1]
      refine ⟨⟨h.pages, h.le, ?_, ?_, ?_⟩, rfl, fun _ _ => rfl, fun hf => absurd hf hnf, Or.inr ⟨h2, rfl⟩⟩
      · intro b rest n hb
        dsimp only at hb
        split at hb
        · cases hb
        · exact h.loader b rest n hb
      · intro b c rest n rest' n' hb hc
        dsimp only at hb hc
        split at hb
        · cases hb
        · split at hc
          · cases hc
          · exact h.one b c _ _ _ _ hb hc
      · intro hm b
        dsimp only
        split
        · exact Or.inr rfl
        · exact h.zero hm b
    | cons p ps =>
      have hml : m < I.file.1.length := by
        have := congrArg List.length hr
        simp at this; omega
      have hdr := List.drop_eq_getElem_cons hml
      rw [← hr] at hdr
      simp only [List.cons.injEq] at hdr
      refine ⟨m + 1, ?_⟩
      unfold Interp.load
      refine ⟨⟨?_, by dsimp only; omega, ?_, ?_, by omega⟩, rfl, ?_, fun hf => absurd hf hnf, Or.inl ⟨⟨p, rfl, ?_⟩, rfl, by simp⟩⟩
      · dsimp only
        rw [h.pages, List.take_succ_eq_append_getElem hml, List.zipIdx_append, hdr.1]
        simp [Nat.min_eq_left h.le]
      · intro b rest n hb
        dsimp only at hb ⊢
        split at hb
        · cases hb; exact ⟨rfl, hdr.2, by omega⟩
        · rename_i hne
          exact absurd (hone b rest n hb) hne
      · intro b c rest n rest' n' hb hc
        try dsimp only at hb hc
        split at hb
        · rename_i e1
          split at hc
          · rename_i e2; rw [e1, e2]
          · rename_i hne; exact absurd (hone c _ _ hc) hne
        · rename_i hne; exact absurd (hone b _ _ hb) hne
      · intro b hb
        cases hbi : its b with
        | loading r n => exact absurd (hone b r n hbi) hb
        | _ => rfl
      · rw [List.getElem?_eq_getElem hml, hdr.1]
  cases hit : its a with
  | fresh =>
    by_cases hp : I.pages = []
    · have hm : m = 0 := by rw [← hpl, hp]; rfl
      have := hload (I.file.1.drop m) rfl (by rw [hit]; exact hm.symm) (by rw [hit]; simp)
        (fun b r n hb => by have := (h.loader b r n hb).2.2; omega)
        (fun b hb i hi => by rcases h.zero hm b with h | h <;> rw [h] at hi <;> cases hi)
        (by rw [hit, hm]; simp [Interp.next, hp])
      rwa [hit] at this
    · have := hlist 0 (by rw [hit]; rfl) (by rw [hit]; simp) (by rw [hit]; simp [Interp.next, hp])
      rwa [hit] at this
  | listing i =>
    have := hlist i (by rw [hit]; rfl) (by rw [hit]; simp) (by rw [hit]; rfl)
    rwa [hit] at this
  | loading rest n =>
    obtain ⟨h1, h2, h3⟩ := h.loader a rest n hit
    have := hload rest h2 (by rw [hit]; rfl) (by rw [hit]; simp) (fun b r k hb => h.one b a _ _ _ _ hb hit) (fun _ _ _ _ => h3) (by rw [hit, h1]; rfl)
    rwa [hit] at this
  | finished =>
    refine ⟨m, ⟨h.pages, h.le, ?_, ?_, ?_⟩, rfl, fun _ _ => rfl, fun _ => rfl, Or.inr ⟨by simp [Interp.next], rfl⟩⟩
    · intro b rest n hb
      try dsimp only at hb
      split at hb
      · cases hb
      · exact h.loader b rest n hb
    · intro b c rest n rest' n' hb hc
      try dsimp only at hb hc
      split at hb
      · cases hb
      · split at hc
        · cases hc
        · exact h.one b c _ _ _ _ hb hc
    · intro hm b
      try dsimp only
      split
      · exact Or.inr rfl
      · exact h.zero hm b

theorem run_items (ops : List Nat) (I : Interp α) (its : Nat → Iter α) (m a : Nat) (h : Iterating I its m) :
    (its a = .finished → items (((runIters I its ops).filter fun x => x.1 = a).map Prod.snd) = []) ∧
    ∃ c, items (((runIters I its ops).filter fun x => x.1 = a).map Prod.snd) = ((I.file.1.zipIdx.map fun x => (x.2, x.1)).drop ((its a).given m)).take c := by
  induction ops generalizing I its m with
  | nil => exact ⟨fun _ => rfl, 0, by simp [runIters, items]⟩
  | cons b ops ih =>
    obtain ⟨m', h1, h2, h3, h4, h5⟩ := step_items I its m b h
    obtain ⟨i1, c, i2⟩ := ih _ _ m' h1
    rw [runIters]
    by_cases hb : b = a
    · subst hb
      rw [List.filter_cons_of_pos (by simp), List.map_cons]
      dsimp only at i1 i2 ⊢
      rw [if_pos rfl] at i1 i2
      rw [h2] at i2
      constructor
      · intro hf
        have := h4 hf
        rw [this] at i1 ⊢
        exact i1 rfl
      · rcases h5 with ⟨⟨p, e1, e2⟩, e3, e4⟩ | ⟨e1, e2⟩
        · refine ⟨c + 1, ?_⟩
          rw [e1, items, i2, e3]
          have hlt := (List.getElem?_eq_some_iff.1 e2).1
          have hv := (List.getElem?_eq_some_iff.1 e2).2
          rw [List.drop_eq_getElem_cons (i := (its b).given m) (by simpa using hlt), List.take_succ_cons]
          congr 1
          simp [hv]
        · refine ⟨0, ?_⟩
          have : items ((I.next (its b)).1 :: (((runIters (I.next (its b)).2.1 (fun c => if c = b then (I.next (its b)).2.2 else its c) ops).filter fun x => x.1 = b).map Prod.snd)) = [] := by
            cases hs : (I.next (its b)).1 with
            | item x => exact absurd hs (e1 x)
            | stop => exact i1 e2
            | raise e => exact i1 e2
          rw [this]; rfl
    · rw [List.filter_cons_of_neg (by simp [hb])]
      try dsimp only at i1 i2 ⊢
      rw [if_neg (Ne.symm hb)] at i1 i2
      rw [h2, h3 a (Ne.symm hb)] at i2
      exact ⟨i1, c, i2⟩

/-- C64, for every history of a new interpreter and every interleaving of iterations: each iteration gives pages 0, 1, 2, ... of the
document in this order, without gaps and without repetition. Missing: it may end before the last page, namely if an iteration that was still
loading pages has been left behind or overtaken (see `abandoned_iteration`); `iterations_repeat` and `first_iteration` show when it does not. -/
theorem iterations_consecutive_partial (file : Gen α) (ops : List Nat) (a : Nat) :
    items (((runIters ⟨file, []⟩ (fun _ => .fresh) ops).filter fun x => x.1 = a).map Prod.snd) <+: file.1.zipIdx.map fun x => (x.2, x.1) := by
  obtain ⟨_, c, h⟩ := run_items ops ⟨file, []⟩ (fun _ => .fresh) 0 a ⟨rfl, by simp, by simp, by simp, fun _ _ => Or.inl rfl⟩
  rw [h]
  exact List.take_prefix _ _

/-- Two iterations that overlap; the second catches up with the first and ends early. -/
example : runIters ⟨([7, 8, 9], none), []⟩ (fun _ => .fresh) [0, 0, 1, 1, 1, 0, 0] =
    [(0, .item (0, 7)), (0, .item (1, 8)), (1, .item (0, 7)), (1, .item (1, 8)), (1, .stop), (0, .item (2, 9)), (0, .stop)] := by decide

end Pdf

import Verif.Spec.HtmlCut
import Verif.Props.ConvHtml
/-! C100: what a conversion to HTML leaves in its file. -/

namespace Pdf
open Spec

/-- End tags with their indentation. -/
def closers (l : List (Nat × PyStr)) : PyStr := l.flatMap fun x => hClose x.1 x.2

theorem closers_snoc (l : List (Nat × PyStr)) (n : Nat) (t : PyStr) : closers (l ++ [(n, t)]) = closers l ++ hClose n t := by
  simp [closers]

theorem xWrite_append (level : Nat) : ∀ a b : XBody, xWrite level (a.append b) = xWrite level a ++ xWrite level b
  | .nil, b => by simp [XBody.append, xWrite]
  | .cons n r, b => by simp only [XBody.append, xWrite, xWrite_append level r b, List.append_assoc]

theorem xWrite_elm (level : Nat) (tag : PyStr) (attrs : List (PyStr × PyStr)) (body : XBody) :
    xWrite level (.cons (.elm tag attrs false false body) .nil) = hOpen level tag attrs ++ xWrite (level + 1) body ++ hClose level tag := by
  simp [xWrite, xWriteNode, hOpen, hClose]

theorem hWith_true (level : Nat) (tag : PyStr) (attrs : List (PyStr × PyStr)) (body : XBody) :
    hWith level tag attrs (xWrite (level + 1) body, true) = (xWrite level (.cons (.elm tag attrs false false body) .nil), true) := by
  rw [xWrite_elm]; simp [hWith]

theorem hWith_false {level : Nat} {tag : PyStr} {attrs : List (PyStr × PyStr)} {t : PyStr} {cl : List (Nat × PyStr)} {body : XBody}
    (h : t ++ closers cl = xWrite (level + 1) body) : (hWith level tag attrs (t, false)).2 = false ∧
      (hWith level tag attrs (t, false)).1 ++ closers (cl ++ [(level, tag)]) = xWrite level (.cons (.elm tag attrs false false body) .nil) := by
  refine ⟨rfl, ?_⟩
  rw [closers_snoc, xWrite_elm, ← h]
  simp [hWith]

theorem blocksText (env : HtmlEnv) (level : Nat) (l : List CharBlock) :
    (∃ ns, l.mapM (hCharBlock env) = some ns ∧ hBlocksText env level l = (xWrite level (XBody.ofList ns), true)) ∨
    ∃ before cb after ns, l = before ++ cb :: after ∧ (∀ x ∈ before, ¬ BlockRefused env x) ∧ BlockRefused env cb ∧
      before.mapM (hCharBlock env) = some ns ∧ hBlocksText env level l = (xWrite level (XBody.ofList ns), false) := by
  induction l with
  | nil => exact .inl ⟨[], rfl, by simp [hBlocksText, XBody.ofList, xWrite]⟩
  | cons b l ih =>
    cases hb : hCharBlock env b with
    | none => exact .inr ⟨[], b, l, [], rfl, by simp, hCharBlock_none.1 hb, rfl, by simp [hBlocksText, hb, XBody.ofList, xWrite]⟩
    | some n =>
      rcases ih with ⟨ns, h1, h2⟩ | ⟨before, cb, after, ns, h1, h2, h3, h4, h5⟩
      · exact .inl ⟨n :: ns, by simp [List.mapM_cons, hb, h1], by simp [hBlocksText, hb, h2, XBody.ofList, xWrite]⟩
      · refine .inr ⟨b :: before, cb, after, n :: ns, by rw [h1]; rfl, ?_, h3, by simp [List.mapM_cons, hb, h4], by simp [hBlocksText, hb, h5, XBody.ofList, xWrite]⟩
        intro x hx
        rcases List.mem_cons.1 hx with rfl | hx
        · intro h; rw [hCharBlock_none.2 h] at hb; cases hb
        · exact h2 x hx

/-- What is written of an item. -/
def ItemWritten (env : HtmlEnv) (ph : ℚ) (level : Nat) (i : Item) : Prop :=
  (∃ b, hItem env ph i = some b ∧ hItemText env ph level i = (xWrite level b, true)) ∨
  ∃ l t cl b, Cut env i l ∧ hItemText env ph level i = (t, false) ∧ hItems env ph l = some b ∧ t ++ closers cl = xWrite level b

/-- What is written of items. -/
def ItemsWritten (env : HtmlEnv) (ph : ℚ) (level : Nat) (l : List Item) : Prop :=
  (∃ b, hItems env ph l = some b ∧ hItemsText env ph level l = (xWrite level b, true)) ∨
  ∃ before i after r t cl b, l = before ++ i :: after ∧ (∀ x ∈ before, ¬ Refused env x) ∧ Cut env i r ∧ hItemsText env ph level l = (t, false) ∧
    hItems env ph (before ++ r) = some b ∧ t ++ closers cl = xWrite level b

mutual
theorem itemText (env : HtmlEnv) (ph : ℚ) (level : Nat) : ∀ i : Item, ItemWritten env ph level i
  | .none => .inl ⟨.nil, by simp [hItem], by simp [hItemText, xWrite]⟩
  | .image d data b => .inl ⟨_, by rw [hItem], by simp [hItemText, xWrite]⟩
  | .curve c => by
    cases hc : hCurve env ph c with
    | none => exact .inr ⟨[], [], [], .nil, .curve (hCurve_none.1 hc), by simp [hItemText, hc], by simp [hItems], rfl⟩
    | some n => exact .inl ⟨.cons n .nil, by simp [hItem, hc], by simp [hItemText, hc, xWrite]⟩
  | .text b => by
    rcases blocksText env (level + 1) b.blocks with ⟨ns, h1, h2⟩ | ⟨before, cb, after, ns, h1, h2, h3, h4, h5⟩
    · refine .inl ⟨.cons (.elm (pstr "span") [(pstr "class", pstr "text-block")] false false (XBody.ofList ns)) .nil, by rw [hItem, h1]; rfl, ?_⟩
      rw [hItemText, h2, hWith_true]
    · have := hWith_false (level := level) (tag := pstr "span") (attrs := [(pstr "class", pstr "text-block")]) (cl := []) (List.append_nil _ : xWrite (level + 1) (XBody.ofList ns) ++ [] = _)
      refine .inr ⟨_, _, _, _, .text h1 h2 h3, ?_, ?_, this.2⟩
      · rw [hItemText, h5]; rfl
      · simp [hItems, hItem, h4, XBody.append]
  | .xobj s b r m children => by
    rcases itemsText env ph (level + 1) children with ⟨body, h1, h2⟩ | ⟨before, i, after, r', t, cl, body, h1, h2, h3, h4, h5, h6⟩
    · refine .inl ⟨.cons (.elm (pstr "div") (styled [(pstr "class", pstr "xobject")] (xobjectCss env b)) false false body) .nil, by rw [hItem, h1]; rfl, ?_⟩
      rw [hItemText, h2, hWith_true]
    · have := hWith_false (level := level) (tag := pstr "div") (attrs := styled [(pstr "class", pstr "xobject")] (xobjectCss env b)) h6
      refine .inr ⟨_, _, _, _, h1 ▸ Cut.xobj h2 h3, ?_, ?_, this.2⟩
      · rw [hItemText, h4]; rfl
      · simp [hItems, hItem, h5, XBody.append]
theorem itemsText (env : HtmlEnv) (ph : ℚ) (level : Nat) : ∀ l : List Item, ItemsWritten env ph level l
  | [] => .inl ⟨.nil, by simp [hItems], by simp [hItemsText, xWrite]⟩
  | i :: l => by
    rcases itemText env ph level i with ⟨a, h1, h2⟩ | ⟨r, t, cl, b, h1, h2, h3, h4⟩
    · have hi : ¬ Refused env i := fun h => by rw [(hItem_none env ph i).2 h] at h1; cases h1
      rcases itemsText env ph level l with ⟨b, h3, h4⟩ | ⟨before, j, after, r, t, cl, b, h3, h4, h5, h6, h7, h8⟩
      · exact .inl ⟨a.append b, by simp [hItems, h1, h3], by simp [hItemsText, h2, h4, xWrite_append]⟩
      · refine .inr ⟨i :: before, j, after, r, xWrite level a ++ t, cl, a.append b, by rw [h3]; rfl, ?_, h5, by simp [hItemsText, h2, h6], ?_, ?_⟩
        · intro x hx
          rcases List.mem_cons.1 hx with rfl | hx
          · exact hi
          · exact h4 x hx
        · rw [List.cons_append, hItems, h1, h7]
        · rw [xWrite_append, ← h8, List.append_assoc]
    · exact .inr ⟨[], i, l, r, t, cl, b, rfl, by simp, h1, by simp [hItemsText, h2], h3, h4⟩
end

/-- An item of which only a part is written is refused. -/
theorem cut_refused {env : HtmlEnv} {i : Item} {l : List Item} (h : Cut env i l) : Refused env i := by
  induction h with
  | curve h => exact .curve h
  | text h1 _ h3 =>
    rcases h3 with h | h
    · exact .weight (by rw [h1]; simp) h
    · exact .color (by rw [h1]; simp) h
  | xobj _ _ ih => exact .xobj (by simp) ih

theorem cut_items {env : HtmlEnv} {i : Item} {l : List Item} (h : Cut env i l) (hi : HtmlItem env i) : ∀ j ∈ l, HtmlItem env j := by
  induction h with
  | curve => simp
  | text h1 _ _ =>
    cases hi with
    | text hi =>
      intro j hj
      obtain rfl := List.mem_singleton.1 hj
      exact .text fun cb hc => hi cb (by rw [h1]; exact List.mem_append_left _ hc)
  | xobj _ _ ih =>
    cases hi with
    | xobj hi =>
      intro j hj
      obtain rfl := List.mem_singleton.1 hj
      refine .xobj fun x hx => ?_
      rcases List.mem_append.1 hx with hx | hx
      · exact hi x (List.mem_append_left _ hx)
      · exact ih (hi _ (by simp)) x hx

/-- The items that are shown are those of the document, or parts of them. -/
theorem shown_items {env : HtmlEnv} {all shown : List LtPage} {e : Option PyErr} {r : HtmlEnd} (h : HtmlShown env all e shown r)
    (hi : ∀ p ∈ all, ∀ i ∈ p.items, HtmlItem env i) : ∀ p ∈ shown, ∀ i ∈ p.items, HtmlItem env i := by
  cases h with
  | done => exact hi
  | raised => exact hi
  | refused k1 _ k3 =>
    subst k1
    intro p hp
    rcases List.mem_append.1 hp with hp | hp
    · exact hi p (List.mem_append_left _ hp)
    · obtain rfl := List.mem_singleton.1 hp
      obtain ⟨_, k⟩ := k3
      have := hi _ (List.mem_append_right _ List.mem_cons_self)
      intro i hm
      rcases List.mem_append.1 hm with hm | hm
      · exact this i (List.mem_append_left _ hm)
      · exact cut_items k (this _ (List.mem_append_right _ List.mem_cons_self)) i hm

/-! ### Pages -/

theorem pageText (env : HtmlEnv) (level : Nat) (complete : Bool) (p : LtPage) :
    (∃ n, hPage env p = some n ∧ (∀ i ∈ p.items, ¬ Refused env i) ∧ (hItemsText env p.height (level + 1) p.items).2 = true ∧
      (hPageText env level complete p).2 = complete ∧ (hPageText env level complete p).1 ++ (if complete then [] else hClose level (pstr "div")) = xWriteNode level n) ∨
    ∃ p' t cl n, PageCut env p p' ∧ (hItemsText env p.height (level + 1) p.items).2 = false ∧ hPageText env level complete p = (t, false) ∧
      hPage env p' = some n ∧ t ++ closers cl = xWriteNode level n := by
  obtain ⟨num, w, h, items⟩ := p
  have hx : ∀ n, xWrite level (.cons n .nil) = xWriteNode level n := fun n => by simp [xWrite]
  rcases itemsText env h (level + 1) items with ⟨body, h1, h2⟩ | ⟨before, i, after, r', t, cl, body, h1, h2, h3, h4, h5, h6⟩
  · refine .inl ⟨_, by rw [hPage, h1]; rfl, ?_, by dsimp only; rw [h2], ?_, ?_⟩
    · intro i hi hr
      have := (hItems_none (fun i _ => hItem_none env h i)).2 ⟨i, hi, hr⟩
      rw [h1] at this
      cases this
    · simp [hPageText, h2, hWith]
    · rw [← hx, xWrite_elm]
      cases complete <;> simp [hPageText, h2, hWith]
  · refine .inr ⟨_, (hPageText env level complete ⟨num, w, h, items⟩).1, cl ++ [(level, pstr "div")], _, h1 ▸ PageCut.mk h2 h3, by dsimp only; rw [h4], ?_,
      by rw [hPage, h5]; rfl, ?_⟩
    · simp [hPageText, h4, hWith]
    · rw [← hx, ← (hWith_false h6).2]
      simp [hPageText, h4, hWith]

theorem pagesText (env : HtmlEnv) (level : Nat) (begun : Option LtPage) (e : Option PyErr) (hb : e = none → begun = none) (pages : List LtPage) :
    ∃ shown cl ns, HtmlShown env (pages ++ begun.toList) e shown (hPagesText env level pages begun e).2 ∧ shown.mapM (hPage env) = some ns ∧
      (hPagesText env level pages begun e).1 ++ closers cl = xWrite level (XBody.ofList ns) ∧ ((hPagesText env level pages begun e).2 = .done → cl = []) := by
  induction pages with
  | nil =>
    cases begun with
    | none =>
      refine ⟨[], [], [], ?_, rfl, by simp [hPagesText, closers, XBody.ofList, xWrite], fun _ => rfl⟩
      cases e with
      | none => exact .done (by simp) rfl
      | some e => exact .raised (by simp) rfl
    | some p =>
      cases e with
      | none => exact absurd (hb rfl) (by simp)
      | some e =>
        rcases pageText env level false p with ⟨n, h1, h2, h3, h4, h5⟩ | ⟨p', t, cl, n, h1, h2, h3, h4, h5⟩
        · refine ⟨[p], [(level, pstr "div")], [n], ?_, by simp [List.mapM_cons, h1], ?_, ?_⟩
          · simp only [hPagesText, h3, if_true]
            exact .raised (by simpa using h2) rfl
          · simp only [hPagesText, XBody.ofList, xWrite, List.append_nil]
            rw [← h5]
            simp [closers]
          · simp [hPagesText, h3, HtmlEnd.of]
        · refine ⟨[p'], cl, [n], ?_, by simp [List.mapM_cons, h4], ?_, ?_⟩
          · simp only [hPagesText, h2]
            exact .refused (before := []) (after := []) rfl (by simp) h1
          · simp only [hPagesText, XBody.ofList, xWrite, List.append_nil]
            rw [← h5, h3]
          · simp [hPagesText, h2]
  | cons p ps ih =>
    rcases pageText env level true p with ⟨n, h1, h2, h3, h4, h5⟩ | ⟨p', t, cl, n, h1, h2, h3, h4, h5⟩
    · obtain ⟨shown, cl, ns, g1, g2, g3, g4⟩ := ih
      have e1 : hPageText env level true p = (xWriteNode level n, true) := by
        rw [← h5]; simp only [if_true, List.append_nil]
        exact Prod.ext rfl h4
      have e2 : hPagesText env level (p :: ps) begun e = (xWriteNode level n ++ (hPagesText env level ps begun e).1, (hPagesText env level ps begun e).2) := by
        rw [hPagesText, e1]
      rw [e2]
      refine ⟨p :: shown, cl, n :: ns, ?_, by simp [List.mapM_cons, h1, g2], ?_, g4⟩
      · dsimp only
        generalize (hPagesText env level ps begun e).2 = r at g1
        cases g1 with
        | done k1 k2 =>
          refine .done ?_ k2
          intro q hq
          rcases List.mem_cons.1 hq with rfl | hq
          · exact h2
          · exact k1 q hq
        | raised k1 k2 =>
          refine .raised ?_ k2
          intro q hq
          rcases List.mem_cons.1 hq with rfl | hq
          · exact h2
          · exact k1 q hq
        | @refused before q after q' k1 k2 k3 =>
          refine .refused (before := p :: before) (after := after) (by rw [List.cons_append, k1]; rfl) ?_ k3
          intro q hq
          rcases List.mem_cons.1 hq with rfl | hq
          · exact h2
          · exact k2 q hq
      · simp only [XBody.ofList, xWrite]
        rw [← g3, List.append_assoc]
    · have e2 : hPagesText env level (p :: ps) begun e = (t, .refused) := by rw [hPagesText, h3]
      rw [e2]
      refine ⟨[p'], cl, [n], .refused (before := []) (after := ps ++ begun.toList) rfl (by simp) h1, by simp [List.mapM_cons, h4], ?_, by simp⟩
      simp only [XBody.ofList, xWrite, List.append_nil]
      exact h5

theorem closers_endTags (cl : List (Nat × PyStr)) : EndTags (closers cl ++ hClose 1 (pstr "body") ++ pstr "</html>") (cl.map Prod.snd ++ [pstr "body", pstr "html"]) := by
  have e : ∀ n t r, EndTags r t → ∀ name, EndTags (hClose n name ++ r) (name :: t) := by
    intro n t r h name
    have := EndTags.cons (n := n) (name := name) h
    simpa [hClose, xIndent, pstr] using this
  induction cl with
  | nil => simpa [closers] using e 1 _ _ EndTags.html (pstr "body")
  | cons a l ih =>
    have := e a.1 _ _ ih a.2
    simpa [closers, List.append_assoc] using this

/-- What is written, with the end tags that are missing, is the file for the pages that are shown. -/
theorem htmlRun_closed (env : HtmlEnv) (codec : PyStr) (pages : List LtPage) (begun : Option LtPage) (e : Option PyErr) (hb : e = none → begun = none) :
    ∃ shown rest names, HtmlShown env (pages ++ begun.toList) e shown (htmlRun env codec pages begun e).2 ∧
      htmlFile env codec shown = some ((htmlRun env codec pages begun e).1 ++ rest) ∧
      ((htmlRun env codec pages begun e).2 = .done → rest = []) ∧ ((htmlRun env codec pages begun e).2 ≠ .done → EndTags rest (names ++ [pstr "body", pstr "html"])) := by
  obtain ⟨shown, cl, ns, h1, h2, h3, h4⟩ := pagesText env 2 begun e hb pages
  have e0 : hFile (.cons (.elm (pstr "html") [] false true (.cons (hHead codec) (.cons (.elm (pstr "body") [] false false (XBody.ofList ns)) .nil))) .nil) =
      hOpen 0 (pstr "html") [] ++ xWriteNode 1 (hHead codec) ++ hOpen 1 (pstr "body") [] ++ xWrite 2 (XBody.ofList ns) ++ hClose 1 (pstr "body") ++ pstr "</html>" := by
    have e1 : pstr "</html>" = [0x3c, 0x2f] ++ pstr "html" ++ [0x3e] := by decide
    rw [e1]
    simp [hFile, xWrite, xWriteNode, hOpen, hClose, xIndent]
  by_cases hd : (htmlRun env codec pages begun e).2 = .done
  · have hd' : (hPagesText env 2 pages begun e).2 = .done := hd
    refine ⟨shown, [], [], h1, ?_, fun _ => rfl, fun h => absurd hd h⟩
    have h3' := h3
    rw [h4 hd', show closers [] = [] from rfl, List.append_nil] at h3'
    simp only [htmlFile, h2, Option.map_some, e0, htmlRun, hd', if_true, h3', List.append_assoc, List.append_nil]
  · have hd' : (hPagesText env 2 pages begun e).2 ≠ .done := hd
    refine ⟨shown, closers cl ++ hClose 1 (pstr "body") ++ pstr "</html>", cl.map Prod.snd, h1, ?_, fun h => absurd h hd, fun _ => closers_endTags cl⟩
    simp only [htmlFile, h2, Option.map_some, e0, htmlRun, if_neg hd', ← h3, List.append_assoc, List.append_nil, List.nil_append]

/-- Without exceptions the whole file is written. -/
theorem htmlRun_done (env : HtmlEnv) (codec : PyStr) (pages : List LtPage) (hp : ∀ p ∈ pages, ∀ i ∈ p.items, ¬ Refused env i) {file : PyStr}
    (h : htmlFile env codec pages = some file) : htmlRun env codec pages none none = (file, .done) := by
  obtain ⟨shown, rest, names, h1, h2, h3, _⟩ := htmlRun_closed env codec pages none none (fun _ => rfl)
  simp only [Option.toList_none, List.append_nil] at h1
  generalize he : (htmlRun env codec pages none none).2 = r at *
  cases h1 with
  | done k1 k2 =>
    rw [h3 rfl, List.append_nil, h] at h2
    exact Prod.ext (Option.some.inj h2).symm he
  | raised _ k => cases k
  | refused k1 k2 k3 =>
    exfalso
    obtain ⟨_, k⟩ := k3
    subst k1
    exact hp _ (List.mem_append_right _ List.mem_cons_self) _ (List.mem_append_right _ List.mem_cons_self) (cut_refused k)

end Pdf

import Verif.Spec.CmapDb
import Verif.Props.SaveImage
import Verif.Props.Xref
/-! C106: the maps that are kept in files. -/

namespace Pdf
open Spec

theorem inDir_of (d : PyStr) {file : PyStr} (hf : ¬ pstr "/" <+: file) : InDir d file (pathJoin d file) := by
  have hj : pathJoin d file = if d = [] ∨ d.getLast? = some 0x2f then d ++ file else d ++ [0x2f] ++ file := by
    unfold pathJoin
    split
    · rename_i r
      exact absurd ⟨r, rfl⟩ hf
    · rfl
  rw [hj]
  split
  · rename_i h
    rcases h with rfl | h
    · exact .here
    · obtain ⟨ys, rfl⟩ := List.getLast?_eq_some_iff.1 h
      exact .slash
  · rename_i h
    refine .plain (fun e => h (.inl e)) fun ⟨t, ht⟩ => h (.inr ?_)
    rw [← ht]; simp [pstr]

theorem plain_file {n : PyStr} (h : PlainName n) : cmapFileName n = n ++ pstr ".pickle.gz" ∧ ¬ pstr "/" <+: n ++ pstr ".pickle.gz" := by
  obtain ⟨h1, h2, h3⟩ := h
  refine ⟨?_, ?_⟩
  · unfold cmapFileName
    rw [List.filter_eq_self.2]
    intro c hc
    simp only [bne_iff_ne]
    rintro rfl
    exact h3 hc
  · rintro ⟨t, ht⟩
    match n, h1, h2, ht with
    | c :: cs, _, h2, ht =>
      have : (0x2f : Nat) = c := (List.cons.inj (show (0x2f : Nat) :: ([] ++ t) = c :: (cs ++ pstr ".pickle.gz") from ht)).1
      exact h2 (by simp [this])

theorem plain_toUnicode {n : PyStr} (h : PlainName n) : PlainName (pstr "to-unicode-" ++ n) := by
  refine ⟨by simp [pstr], ?_, ?_⟩
  · intro hm
    rcases List.mem_append.1 hm with hm | hm
    · revert hm; decide
    · exact h.2.1 hm
  · intro hm
    rcases List.mem_append.1 hm with hm | hm
    · revert hm; decide
    · exact h.2.2 hm

theorem dirs_are (E : CmapEnv) : CmapDirs E E.dirs := by
  refine ⟨_, _, rfl, ?_, inDir_of _ (by decide)⟩
  cases E.path with
  | none => exact .inr ⟨rfl, rfl⟩
  | some d => exact .inl rfl

theorem dirs_only {E : CmapEnv} {ds : List PyStr} (h : CmapDirs E ds) : ds = E.dirs := by
  obtain ⟨d1, d2, rfl, h1, h2⟩ := h
  unfold CmapEnv.dirs
  rw [inDir_join h2 (by decide)]
  rcases h1 with h1 | ⟨h1, rfl⟩ <;> rw [h1] <;> rfl

theorem search_first (E : CmapEnv) (F : Files) {file : PyStr} (hf : ¬ pstr "/" <+: file) (ds : List PyStr) :
    (∃ data, FirstFile F file ds (some data) ∧ E.search F file ds = E.unpickle data) ∨
      FirstFile F file ds none ∧ E.search F file ds = .error .cmapNotFound := by
  induction ds with
  | nil => exact .inr ⟨.none, rfl⟩
  | cons d ds ih =>
    rw [CmapEnv.search]
    rcases hF : F (pathJoin d file) with _ | data
    · dsimp only
      rcases ih with ⟨data, h1, h2⟩ | ⟨h1, h2⟩
      · exact .inl ⟨data, .next (inDir_of d hf) hF h1, h2⟩
      · exact .inr ⟨.next (inDir_of d hf) hF h1, h2⟩
    · exact .inl ⟨data, .here (inDir_of d hf) hF, rfl⟩

theorem load_module (E : CmapEnv) (F : Files) {n : PyStr} (h : PlainName n) : ModuleOf E F n (E.loadData F n) := by
  obtain ⟨h1, h2⟩ := plain_file h
  unfold CmapEnv.loadData
  rw [h1]
  rcases search_first E F h2 E.dirs with ⟨data, h3, h4⟩ | ⟨h3, h4⟩
  · rw [h4]; exact .found (dirs_are E) h3
  · rw [h4]; exact .missing (dirs_are E) h3

theorem firstFile_unique {F : Files} {file : PyStr} (hf : ¬ pstr "/" <+: file) {ds : List PyStr} {r r' : Option Bytes} (h : FirstFile F file ds r)
    (h' : FirstFile F file ds r') : r = r' := by
  induction h with
  | none => cases h'; rfl
  | here h1 h2 =>
    cases h' with
    | here g1 g2 => rw [← inDir_join h1 hf] at h2; rw [← inDir_join g1 hf] at g2; rw [← h2, ← g2]
    | next g1 g2 => rw [← inDir_join h1 hf] at h2; rw [← inDir_join g1 hf] at g2; rw [g2] at h2; cases h2
  | next h1 h2 _ ih =>
    cases h' with
    | here g1 g2 => rw [← inDir_join h1 hf] at h2; rw [← inDir_join g1 hf] at g2; rw [g2] at h2; cases h2
    | next _ _ g3 => exact ih g3

/-- The files determine the module. -/
theorem module_unique {E : CmapEnv} {F : Files} {n : PyStr} (hn : PlainName n) {r r' : Except PyErr CmapModule} (h : ModuleOf E F n r) (h' : ModuleOf E F n r') :
    r = r' := by
  obtain ⟨-, h2⟩ := plain_file hn
  cases h with
  | found d1 f1 =>
    cases h' with
    | found d2 f2 => rw [dirs_only d1, ← dirs_only d2] at f1; cases firstFile_unique h2 f1 f2; rfl
    | missing d2 f2 => rw [dirs_only d1, ← dirs_only d2] at f1; cases firstFile_unique h2 f1 f2
  | missing d1 f1 =>
    cases h' with
    | found d2 f2 => rw [dirs_only d1, ← dirs_only d2] at f1; cases firstFile_unique h2 f1 f2
    | missing d2 f2 => rfl

/-! ### Histories -/

/-- The caches hold what is remembered. -/
structure Holding (M : DbMemory) (db : CmapDb) : Prop where
  cmap : ∀ n, dictGet db.cmaps n = M.cmap n
  umap : ∀ n, dictGet db.umaps n = M.umap n

theorem cmap_in (E : CmapEnv) (F : Files) {n : PyStr} (hn : PlainName n) :
    CmapIn E F n (match E.loadData F n with | .error e => .error e | .ok d => pyCmap d) := by
  have h := load_module E F hn
  rcases hl : E.loadData F n with e | m
  · rw [hl] at h; exact .error h
  · rw [hl] at h
    dsimp only
    unfold pyCmap
    rcases h1 : m.code2cid with _ | t
    · exact .other h (.inl h1)
    · rcases h2 : m.isVertical with _ | v
      · exact .other h (.inr h2)
      · exact .table h h1 h2

theorem umaps_in (E : CmapEnv) (F : Files) {n : PyStr} (hn : PlainName n) :
    UmapsIn E F n (match E.loadData F (pstr "to-unicode-" ++ n) with | .error e => .error e | .ok d => pyUnicodeMaps d) := by
  have h := load_module E F (plain_toUnicode hn)
  rcases hl : E.loadData F (pstr "to-unicode-" ++ n) with e | m
  · rw [hl] at h; exact .error h
  · rw [hl] at h
    dsimp only
    unfold pyUnicodeMaps
    rcases h1 : m.horizontal with _ | t
    · exact .other h (.inl h1)
    · rcases h2 : m.vertical with _ | v
      · exact .other h (.inr h2)
      · exact .maps h h1 h2

theorem db_answers {E : CmapEnv} {cs : List DbCall} (hp : PlainCalls cs) {M : DbMemory} {db : CmapDb} (hold : Holding M db) (F : Files) :
    DbAnswers E M F cs (dbRun E db F cs) := by
  induction cs generalizing M db F with
  | nil => exact .nil
  | cons c cs ih =>
    have hp' : PlainCalls cs := fun c hc => hp c (by simp [hc])
    have hc := hp c (by simp)
    cases c with
    | change F' => exact .change (ih hp' hold F')
    | cmap n =>
      simp only at hc
      rw [dbRun]
      unfold CmapDb.getCmap
      split
      · rename_i h; subst h; exact .horizontal (ih hp' hold F)
      · rename_i n1
        split
        · rename_i h; subst h; exact .vertical (ih hp' hold F)
        · rename_i n2
          have hin := cmap_in E F hc
          rcases hg : dictGet db.cmaps n with _ | m
          · have hm : M.cmap n = none := by rw [← hold.cmap, hg]
            dsimp only
            rcases hl : E.loadData F n with e | d
            · rw [hl] at hin
              exact .failed n1 n2 hm hin (ih hp' hold F)
            · rw [hl] at hin
              dsimp only at hin ⊢
              rcases hpc : pyCmap d with e | m
              · rw [hpc] at hin; exact .failed n1 n2 hm hin (ih hp' hold F)
              · rw [hpc] at hin
                have hold' : Holding (M.addCmap n m) { db with cmaps := dictSet db.cmaps n m } := by
                  refine ⟨fun k => ?_, hold.umap⟩
                  simp only [DbMemory.addCmap, dictGet_dictSet]
                  rw [← hold.cmap]
                  by_cases h : k = n
                  · simp [h]
                  · simp [h, Ne.symm h]
                exact .found n1 n2 hm hin (ih hp' hold' F)
          · exact .known n1 n2 (by rw [← hold.cmap, hg]) (ih hp' hold F)
    | umap n v =>
      simp only at hc
      rw [dbRun]
      unfold CmapDb.getUnicodeMap
      have hin := umaps_in E F hc
      rcases hg : dictGet db.umaps n with _ | m
      · have hm : M.umap n = none := by rw [← hold.umap, hg]
        dsimp only
        rcases hl : E.loadData F (pstr "to-unicode-" ++ n) with e | d
        · rw [hl] at hin
          exact .failedU hm hin (ih hp' hold F)
        · rw [hl] at hin
          dsimp only at hin ⊢
          rcases hpc : pyUnicodeMaps d with e | m
          · rw [hpc] at hin; exact .failedU hm hin (ih hp' hold F)
          · rw [hpc] at hin
            have hold' : Holding (M.addUmap n m) { db with umaps := dictSet db.umaps n m } := by
              refine ⟨hold.cmap, fun k => ?_⟩
              simp only [DbMemory.addUmap, dictGet_dictSet]
              rw [← hold.umap]
              by_cases h : k = n
              · simp [h]
              · simp [h, Ne.symm h]
            exact .foundU hm hin (ih hp' hold' F)
      · exact .knownU (by rw [← hold.umap, hg]) (ih hp' hold F)

/-- **C106.** Whatever is asked, in any order and however the files change in between, every answer for a plain name is what the files held when the map was
found for the first time: that of the file `<name>.pickle.gz` in the first of the two directories that has one, and for unicode maps `to-unicode-<name>.pickle.gz`.
Nothing is remembered of a request that failed. `Identity-H` and `Identity-V` need no file. -/
theorem cmapdb_answers {E : CmapEnv} {cs : List DbCall} (hp : PlainCalls cs) (F : Files) : DbAnswers E .empty F cs (dbRun E {} F cs) :=
  db_answers hp ⟨fun _ => rfl, fun _ => rfl⟩ F

/-! ### Corollaries for any names -/

/-- The caches after a sequence of calls. -/
def dbAfter (E : CmapEnv) : CmapDb → Files → List DbCall → CmapDb
  | db, _, [] => db
  | db, F, .cmap n :: cs => dbAfter E (db.getCmap E F n).1 F cs
  | db, F, .umap n v :: cs => dbAfter E (db.getUnicodeMap E F n v).1 F cs
  | db, _, .change F :: cs => dbAfter E db F cs

theorem getCmap_keeps (E : CmapEnv) (F : Files) (db : CmapDb) (n k : PyStr) (m : CMapObj) (h : dictGet db.cmaps k = some m) :
    dictGet (db.getCmap E F n).1.cmaps k = some m := by
  unfold CmapDb.getCmap
  split
  · exact h
  split
  · exact h
  rcases hg : dictGet db.cmaps n with _ | x
  · dsimp only
    rcases E.loadData F n with e | d
    · exact h
    dsimp only
    rcases pyCmap d with e | m'
    · exact h
    · simp only [dictGet_dictSet]
      split
      · rename_i e; subst e; rw [hg] at h; cases h
      · exact h
  · exact h

theorem getUnicodeMap_keeps (E : CmapEnv) (F : Files) (db : CmapDb) (n k : PyStr) (v : Bool) (m : CodeMap × CodeMap) (h : dictGet db.umaps k = some m) :
    dictGet (db.getUnicodeMap E F n v).1.umaps k = some m := by
  unfold CmapDb.getUnicodeMap
  rcases hg : dictGet db.umaps n with _ | x
  · dsimp only
    rcases E.loadData F (pstr "to-unicode-" ++ n) with e | d
    · exact h
    dsimp only
    rcases pyUnicodeMaps d with e | m'
    · exact h
    · simp only [dictGet_dictSet]
      split
      · rename_i e; subst e; rw [hg] at h; cases h
      · exact h
  · exact h

theorem getCmap_umaps (E : CmapEnv) (F : Files) (db : CmapDb) (n : PyStr) : (db.getCmap E F n).1.umaps = db.umaps := by
  unfold CmapDb.getCmap
  split; · rfl
  split; · rfl
  rcases dictGet db.cmaps n with _ | x
  · dsimp only
    rcases E.loadData F n with e | d
    · rfl
    dsimp only
    rcases pyCmap d with e | m' <;> rfl
  · rfl

theorem getUnicodeMap_cmaps (E : CmapEnv) (F : Files) (db : CmapDb) (n : PyStr) (v : Bool) : (db.getUnicodeMap E F n v).1.cmaps = db.cmaps := by
  unfold CmapDb.getUnicodeMap
  rcases dictGet db.umaps n with _ | x
  · dsimp only
    rcases E.loadData F (pstr "to-unicode-" ++ n) with e | d
    · rfl
    dsimp only
    rcases pyUnicodeMaps d with e | m' <;> rfl
  · rfl

theorem dbAfter_keeps (E : CmapEnv) (cs : List DbCall) (db : CmapDb) (F : Files) :
    (∀ k m, dictGet db.cmaps k = some m → dictGet (dbAfter E db F cs).cmaps k = some m) ∧
    (∀ k m, dictGet db.umaps k = some m → dictGet (dbAfter E db F cs).umaps k = some m) := by
  induction cs generalizing db F with
  | nil => exact ⟨fun _ _ h => h, fun _ _ h => h⟩
  | cons c cs ih =>
    cases c with
    | cmap n => exact ⟨fun k m h => (ih _ F).1 k m (getCmap_keeps E F db n k m h), fun k m h => (ih _ F).2 k m (by rw [getCmap_umaps]; exact h)⟩
    | umap n v => exact ⟨fun k m h => (ih _ F).1 k m (by rw [getUnicodeMap_cmaps]; exact h), fun k m h => (ih _ F).2 k m (getUnicodeMap_keeps E F db n k v m h)⟩
    | change F' => exact ih db F'

theorem getCmap_known {E : CmapEnv} {F : Files} {db db' : CmapDb} {n : PyStr} {m : CMapObj} (h : db.getCmap E F n = (db', .ok m)) :
    n = pstr "Identity-H" ∧ m = .identity false ∨ n = pstr "Identity-V" ∧ m = .identity true ∨
      (n ≠ pstr "Identity-H" ∧ n ≠ pstr "Identity-V") ∧ dictGet db'.cmaps n = some m := by
  unfold CmapDb.getCmap at h
  split at h
  · cases h; exact .inl ⟨by assumption, rfl⟩
  split at h
  · cases h; exact .inr (.inl ⟨by assumption, rfl⟩)
  rename_i n1 n2
  refine .inr (.inr ⟨⟨n1, n2⟩, ?_⟩)
  rcases hg : dictGet db.cmaps n with _ | x
  · rw [hg] at h
    dsimp only at h
    rcases hl : E.loadData F n with e | d
    · rw [hl] at h; cases h
    rw [hl] at h
    dsimp only at h
    rcases hp : pyCmap d with e | m'
    · rw [hp] at h; cases h
    · rw [hp] at h; cases h
      simp [dictGet_dictSet]
  · rw [hg] at h; cases h; exact hg

theorem getUnicodeMap_known {E : CmapEnv} {F : Files} {db db' : CmapDb} {n : PyStr} {v : Bool} {m : CodeMap} (h : db.getUnicodeMap E F n v = (db', .ok m)) :
    ∃ ms, dictGet db'.umaps n = some ms ∧ m = umapAt ms v := by
  unfold CmapDb.getUnicodeMap at h
  rcases hg : dictGet db.umaps n with _ | x
  · rw [hg] at h
    dsimp only at h
    rcases hl : E.loadData F (pstr "to-unicode-" ++ n) with e | d
    · rw [hl] at h; cases h
    rw [hl] at h
    dsimp only at h
    rcases hp : pyUnicodeMaps d with e | m'
    · rw [hp] at h; cases h
    · rw [hp] at h; cases h
      exact ⟨m', by simp [dictGet_dictSet], rfl⟩
  · rw [hg] at h; cases h; exact ⟨x, hg, rfl⟩

/-- **C106.** Once a map was found, the same map is given for this name for ever, whatever else is asked and however the files change. -/
theorem cmap_stable {E : CmapEnv} {F : Files} {db db' : CmapDb} {n : PyStr} {m : CMapObj} (h : db.getCmap E F n = (db', .ok m)) (cs : List DbCall) (F' : Files) :
    ((dbAfter E db' F cs).getCmap E F' n).2 = .ok m := by
  rcases getCmap_known h with ⟨rfl, rfl⟩ | ⟨rfl, rfl⟩ | ⟨⟨n1, n2⟩, hk⟩
  · rfl
  · unfold CmapDb.getCmap; rw [if_neg (by decide), if_pos rfl]
  · unfold CmapDb.getCmap
    rw [if_neg n1, if_neg n2, (dbAfter_keeps E cs db' F).1 n m hk]

/-- **C106.** The same for unicode maps. -/
theorem umap_stable {E : CmapEnv} {F : Files} {db db' : CmapDb} {n : PyStr} {v : Bool} {m : CodeMap} (h : db.getUnicodeMap E F n v = (db', .ok m))
    (cs : List DbCall) (F' : Files) : ((dbAfter E db' F cs).getUnicodeMap E F' n v).2 = .ok m := by
  obtain ⟨ms, hk, rfl⟩ := getUnicodeMap_known h
  unfold CmapDb.getUnicodeMap
  rw [(dbAfter_keeps E cs db' F).2 n ms hk]

/-- The caches hold only what the files hold. -/
def Current (E : CmapEnv) (F : Files) (db : CmapDb) : Prop :=
  (∀ n m, dictGet db.cmaps n = some m → ∃ d, E.loadData F n = .ok d ∧ pyCmap d = .ok m) ∧
  (∀ n m, dictGet db.umaps n = some m → ∃ d, E.loadData F (pstr "to-unicode-" ++ n) = .ok d ∧ pyUnicodeMaps d = .ok m)

theorem getCmap_current {E : CmapEnv} {F : Files} {db : CmapDb} (h : Current E F db) (n : PyStr) :
    (db.getCmap E F n).2 = (({} : CmapDb).getCmap E F n).2 ∧ Current E F (db.getCmap E F n).1 := by
  unfold CmapDb.getCmap
  split
  · exact ⟨rfl, h⟩
  split
  · exact ⟨rfl, h⟩
  rw [show dictGet ({} : CmapDb).cmaps n = none from rfl]
  rcases hg : dictGet db.cmaps n with _ | x
  · dsimp only
    rcases hl : E.loadData F n with e | d
    · exact ⟨rfl, h⟩
    dsimp only
    rcases hp : pyCmap d with e | m
    · exact ⟨rfl, h⟩
    · refine ⟨rfl, fun k m' hk => ?_, h.2⟩
      simp only [dictGet_dictSet] at hk
      split at hk
      · rename_i e; subst e; cases hk; exact ⟨d, hl, hp⟩
      · exact h.1 k m' hk
  · obtain ⟨d, h1, h2⟩ := h.1 n x hg
    dsimp only
    rw [h1]
    dsimp only
    rw [h2]
    exact ⟨rfl, h⟩

theorem getUnicodeMap_current {E : CmapEnv} {F : Files} {db : CmapDb} (h : Current E F db) (n : PyStr) (v : Bool) :
    (db.getUnicodeMap E F n v).2 = (({} : CmapDb).getUnicodeMap E F n v).2 ∧ Current E F (db.getUnicodeMap E F n v).1 := by
  unfold CmapDb.getUnicodeMap
  rw [show dictGet ({} : CmapDb).umaps n = none from rfl]
  rcases hg : dictGet db.umaps n with _ | x
  · dsimp only
    rcases hl : E.loadData F (pstr "to-unicode-" ++ n) with e | d
    · exact ⟨rfl, h⟩
    dsimp only
    rcases hp : pyUnicodeMaps d with e | m
    · exact ⟨rfl, h⟩
    · refine ⟨rfl, h.1, fun k m' hk => ?_⟩
      simp only [dictGet_dictSet] at hk
      split at hk
      · rename_i e; subst e; cases hk; exact ⟨d, hl, hp⟩
      · exact h.2 k m' hk
  · obtain ⟨d, h1, h2⟩ := h.2 n x hg
    dsimp only
    rw [h1]
    dsimp only
    rw [h2]
    exact ⟨rfl, h⟩

/-- **C106.** As long as nobody changes the files, the caches cannot be noticed: every answer is the one that a program would get that asks for nothing else. -/
theorem cmapdb_transparent (E : CmapEnv) (F : Files) (cs : List DbCall) (hc : ∀ F', DbCall.change F' ∉ cs) :
    dbRun E {} F cs = cs.flatMap fun c => dbRun E {} F [c] := by
  have key : ∀ db, Current E F db → dbRun E db F cs = cs.flatMap fun c => dbRun E {} F [c] := by
    induction cs with
    | nil => intro _ _; rfl
    | cons c cs ih =>
      intro db h
      have ih := ih fun F' hm => hc F' (by simp [hm])
      rw [List.flatMap_cons]
      cases c with
      | cmap n =>
        obtain ⟨h1, h2⟩ := getCmap_current h n
        rw [dbRun, h1, ih _ h2]; rfl
      | umap n v =>
        obtain ⟨h1, h2⟩ := getUnicodeMap_current h n v
        rw [dbRun, h1, ih _ h2]; rfl
      | change F' => exact absurd (by simp) (hc F')
  exact key {} ⟨fun _ _ h => (by cases h), fun _ _ h => (by cases h)⟩

/-- The files of a font environment are those of the database. -/
def FontFiles (E : FontEnv) (D : CmapEnv) (F : Files) : Prop :=
  ∀ s t v, E.cmapFile s = some (t, v) ↔ ∃ m, D.loadData F s = .ok m ∧ m.code2cid = some t ∧ m.isVertical = some v

/-- **C106.** The map of a composite font is the one that the database gives after any history of requests, and the empty one if it gives none. -/
theorem font_cmap {E : FontEnv} {D : CmapEnv} {F : Files} (hE : FontFiles E D F) (cs : List DbCall) (hc : ∀ F', DbCall.change F' ∉ cs) (s : PyStr) :
    cidCmap.find E s = (match ((dbAfter D {} F cs).getCmap D F s).2 with | .ok m => m | .error _ => .table [] false) := by
  have cur : ∀ db, Current D F db → Current D F (dbAfter D db F cs) := by
    induction cs with
    | nil => intro db h; exact h
    | cons c cs ih =>
      intro db h
      have ih := ih fun F' hm => hc F' (by simp [hm])
      cases c with
      | cmap n => exact ih _ (getCmap_current h n).2
      | umap n v => exact ih _ (getUnicodeMap_current h n v).2
      | change F' => exact absurd (by simp) (hc F')
  rw [(getCmap_current (cur {} ⟨fun _ _ h => (by cases h), fun _ _ h => (by cases h)⟩) s).1]
  unfold cidCmap.find CmapDb.getCmap
  rw [show (asc "Identity-H").map UInt8.toNat = pstr "Identity-H" by decide, show (asc "Identity-V").map UInt8.toNat = pstr "Identity-V" by decide]
  split; · rfl
  split; · rfl
  rw [show dictGet ({} : CmapDb).cmaps s = none from rfl]
  dsimp only
  rcases hf : E.cmapFile s with _ | ⟨t, v⟩
  · dsimp only
    rcases hl : D.loadData F s with e | m
    · rfl
    · dsimp only
      rcases h1 : m.code2cid with _ | t
      · simp [pyCmap, h1]
      · rcases h2 : m.isVertical with _ | v
        · simp [pyCmap, h1, h2]
        · rw [(hE s t v).2 ⟨m, hl, h1, h2⟩] at hf; cases hf
  · obtain ⟨m, hl, h1, h2⟩ := (hE s t v).1 hf
    rw [hl]
    simp [pyCmap, h1, h2]

/-- **C106.** For plain names nothing outside of the two directories is read: files elsewhere do not matter. -/
theorem cmapdb_confined {E : CmapEnv} {n : PyStr} (hn : PlainName n) (db : CmapDb) {F F' : Files}
    (h : ∀ ds d file path, CmapDirs E ds → d ∈ ds → 0x2f ∉ file → InDir d file path → F path = F' path) (v : Bool) :
    db.getCmap E F n = db.getCmap E F' n ∧ db.getUnicodeMap E F n v = db.getUnicodeMap E F' n v := by
  have hs : ∀ {k : PyStr}, PlainName k → E.loadData F k = E.loadData F' k := by
    intro k hk
    obtain ⟨h1, h2⟩ := plain_file hk
    unfold CmapEnv.loadData
    rw [h1]
    have h3 : (0x2f : Nat) ∉ k ++ pstr ".pickle.gz" := by
      intro hm
      rcases List.mem_append.1 hm with hm | hm
      · exact hk.2.1 hm
      · revert hm; decide
    have : ∀ ds, (∀ d ∈ ds, d ∈ E.dirs) → E.search F (k ++ pstr ".pickle.gz") ds = E.search F' (k ++ pstr ".pickle.gz") ds := by
      intro ds
      induction ds with
      | nil => intro _; rfl
      | cons d ds ih =>
        intro hd
        rw [CmapEnv.search, CmapEnv.search, ih fun d' hm => hd d' (by simp [hm]),
          h E.dirs d _ _ (dirs_are E) (hd d (by simp)) h3 (inDir_of d h2)]
    exact this _ fun _ h => h
  constructor
  · unfold CmapDb.getCmap; rw [hs hn]
  · unfold CmapDb.getUnicodeMap; rw [hs (plain_toUnicode hn)]

/-! ### Limits -/

/-- A file that holds a map of one code. -/
def sampleCmaps : CmapEnv where
  path := none
  package := pstr "/lib/pdfmajor"
  unpickle := fun b => if b = [1] then .ok { code2cid := some [(65, .cid 7)], isVertical := some false }
    else .ok { horizontal := some [(7, [65])], vertical := some [(7, [66])] }

/-- **C106, limit.** A name that begins with a slash, from a PDF file, is a path: any file of that kind on the machine is read and given to `pickle.loads`. -/
theorem cmap_path_counterexample :
    (({} : CmapDb).getCmap sampleCmaps (fun q => if q = pstr "/tmp/evil.pickle.gz" then some [1] else none) (pstr "/tmp/evil")).2 = .ok (.table [(65, .cid 7)] false) := by
  rfl

/-- **C106, limit.** The same with the name of a directory above. -/
theorem cmap_parent_counterexample :
    (({} : CmapDb).getCmap sampleCmaps (fun q => if q = pstr "/lib/pdfmajor/cmap/../x.pickle.gz" then some [1] else none) (pstr "../x")).2 = .ok (.table [(65, .cid 7)] false) := by
  rfl

/-- **C106, limit.** A name for `get_cmap` that is the file of a unicode map raises `AttributeError`, not `CMapNotFound`. -/
theorem cmap_kind_counterexample :
    (({} : CmapDb).getCmap sampleCmaps (fun q => if q = pstr "/lib/pdfmajor/cmap/to-unicode-J.pickle.gz" then some [2] else none) (pstr "to-unicode-J")).2 =
      .error .attributeError := by
  rfl

example : (({} : CmapDb).getUnicodeMap sampleCmaps (fun q => if q = pstr "/lib/pdfmajor/cmap/to-unicode-J.pickle.gz" then some [2] else none) (pstr "J") true).2 =
    .ok [(7, [66])] := by rfl

example : PlainCalls [.cmap (pstr "H"), .umap (pstr "Adobe-Japan1") true, .change fun _ => none, .cmap (pstr "H")] := by
  intro c hc
  simp only [List.mem_cons, List.not_mem_nil, or_false] at hc
  rcases hc with rfl | rfl | rfl | rfl <;> first | exact ⟨by decide, by decide, by decide⟩ | trivial

end Pdf

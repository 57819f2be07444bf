import Verif.Lemmas.ConvSection
import Verif.Props.Sort

/-! # Lemmas: the sections of a recipe that is converted -/

namespace Crm
open Spec Act

/-! ## Sorting -/

theorem Spec.StablySorted.of_same_order {α : Type u} {f g : α → Int} (hfg : ∀ a b, f a ≤ f b ↔ g a ≤ g b) {xs ys : List α}
    (h : StablySorted f xs ys) : StablySorted g xs ys := by
  have heq : ∀ a b, f a = f b ↔ g a = g b := by
    intro a b
    have h1 := hfg a b
    have h2 := hfg b a
    omega
  refine ⟨h.perm, h.sorted.imp fun {a b} hab => (hfg a b).1 hab, ?_⟩
  intro k
  by_cases hk : ∃ a ∈ xs, g a = k
  · obtain ⟨a, _, rfl⟩ := hk
    have := h.stable (f a)
    have e : (fun x => decide (g x = g a)) = fun x => decide (f x = f a) := by
      funext x
      exact decide_eq_decide.2 (heq x a).symm
    rw [e]
    exact this
  · have hn : ∀ a ∈ xs, g a ≠ k := fun a ha he => hk ⟨a, ha, he⟩
    rw [List.filter_eq_nil_iff.2, List.filter_eq_nil_iff.2]
    · intro a ha; simpa using hn a ha
    · intro a ha; simpa using hn a (h.perm.mem_iff.1 ha)

theorem lookupD_idxOf : ∀ (tbl : List (Str × Nat)) (s : Str),
    lookupD s tbl = (tbl[(tbl.map (·.1)).idxOf s]?).map (·.2)
  | [], s => rfl
  | (k, v) :: rest, s => by
    simp only [lookupD, List.map_cons, List.idxOf_cons]
    by_cases h : k = s
    · subst h; simp
    · have h' : (k == s) = false := by simpa using h
      simp only [h', cond_false, List.getElem?_cons_succ, ← lookupD_idxOf rest s]
      simp [h]

theorem idxOf_values {tbl : List (Str × Nat)} (hinc : tbl.Pairwise fun a b => a.2 < b.2) {s t : Str} {p q : Nat}
    (hp : lookupD s tbl = some p) (hq : lookupD t tbl = some q) :
    p ≤ q ↔ (tbl.map (·.1)).idxOf s ≤ (tbl.map (·.1)).idxOf t := by
  rw [lookupD_idxOf] at hp hq
  generalize (tbl.map (·.1)).idxOf s = i at *
  generalize (tbl.map (·.1)).idxOf t = j at *
  cases hi : tbl[i]? with
  | none => rw [hi] at hp; cases hp
  | some a =>
    cases hj : tbl[j]? with
    | none => rw [hj] at hq; cases hq
    | some b =>
      rw [hi] at hp; rw [hj] at hq
      injection hp with hp; injection hq with hq
      subst hp hq
      obtain ⟨hi', rfl⟩ := List.getElem?_eq_some_iff.1 hi
      obtain ⟨hj', rfl⟩ := List.getElem?_eq_some_iff.1 hj
      rw [List.pairwise_iff_getElem] at hinc
      show tbl[i].2 ≤ tbl[j].2 ↔ _
      rcases Nat.lt_trichotomy i j with h | h | h
      · have := hinc i j hi' hj' h; omega
      · subst h; simp
      · have := hinc j i hj' hi' h; omega

theorem lookupD_none_idxOf {tbl : List (Str × Nat)} {s : Str} (h : lookupD s tbl = none) :
    (tbl.map (·.1)).idxOf s = tbl.length := by
  have := List.idxOf_le_length (l := tbl.map (·.1)) (a := s)
  rw [List.length_map] at this
  rw [lookupD_idxOf] at h
  simp only [Option.map_eq_none_iff, List.getElem?_eq_none_iff] at h
  omega

theorem lookupD_some_idxOf {tbl : List (Str × Nat)} {s : Str} {p : Nat} (h : lookupD s tbl = some p) :
    (tbl.map (·.1)).idxOf s < tbl.length ∧ ∃ e ∈ tbl, e.2 = p := by
  rw [lookupD_idxOf] at h
  cases hi : tbl[(tbl.map (·.1)).idxOf s]? with
  | none => rw [hi] at h; cases h
  | some a =>
    rw [hi] at h; injection h with h
    obtain ⟨hi', he⟩ := List.getElem?_eq_some_iff.1 hi
    exact ⟨hi', a, by rw [← he]; exact List.getElem_mem _, h⟩

/-- The three kinds of children and their keys. -/
theorem sortKey_cases (tbl : List (Str × Nat)) (n : Node) :
    (sortKey tbl n = -maxSize ∧ placeIn (tbl.map (·.1)) n = -1) ∨
    (sortKey tbl n = maxSize ∧ placeIn (tbl.map (·.1)) n = tbl.length) ∨
    (∃ s p, lookupD s tbl = some p ∧ sortKey tbl n = p ∧ placeIn (tbl.map (·.1)) n = (tbl.map (·.1)).idxOf s) := by
  unfold sortKey placeIn
  by_cases hc : n.isComment
  · left; simp [hc]
  · right
    simp only [hc, Bool.false_eq_true, if_false, List.length_map]
    cases n.value with
    | str s =>
      cases h : lookupD s tbl with
      | none => left; simp [lookupD_none_idxOf h, h]
      | some p => right; exact ⟨s, p, h, by simp [h], rfl⟩
    | _ => left; exact ⟨rfl, rfl⟩

theorem sortKey_order {tbl : List (Str × Nat)} (hsmall : ∀ e ∈ tbl, (e.2 : Int) < maxSize)
    (hinc : tbl.Pairwise fun a b => a.2 < b.2) (a b : Node) :
    sortKey tbl a ≤ sortKey tbl b ↔ placeIn (tbl.map (·.1)) a ≤ placeIn (tbl.map (·.1)) b := by
  have hm : (0 : Int) < maxSize := by decide
  have kn : ∀ s p, lookupD s tbl = some p → (p : Int) < maxSize ∧ (tbl.map (·.1)).idxOf s < tbl.length := by
    intro s p h
    obtain ⟨h1, e, he, rfl⟩ := lookupD_some_idxOf h
    exact ⟨hsmall e he, h1⟩
  rcases sortKey_cases tbl a with ⟨h1, h2⟩ | ⟨h1, h2⟩ | ⟨s, p, h0, h1, h2⟩ <;>
    rcases sortKey_cases tbl b with ⟨h3, h4⟩ | ⟨h3, h4⟩ | ⟨t, q, h0', h3, h4⟩ <;> rw [h1, h2, h3, h4]
  · omega
  · omega
  · have := kn _ _ h0'; omega
  · omega
  · omega
  · have := kn _ _ h0'; omega
  · have := kn _ _ h0; omega
  · have := kn _ _ h0; omega
  · have := idxOf_values hinc h0 h0'; omega

/-- Sorting by a table of the code puts the children into the order of its names. -/
theorem ordered_by_table {tbl : List (Str × Nat)} (hsmall : ∀ e ∈ tbl, (e.2 : Int) < maxSize)
    (hinc : tbl.Pairwise fun a b => a.2 < b.2) {names : List Str} (hn : tbl.map (·.1) = names) {ks ks' : List Node}
    (h : Ordered names ks ks') : ks' = sortByKey (sortKey tbl) ks := by
  subst hn
  exact C32_unique (h.of_same_order fun a b => (sortKey_order hsmall hinc a b).symm) (C32_stable_sort _ _)

section steps
variable {E : Env} {comps : List Str} {pos : Pos} {n : Node} {ks : List Node}

theorem sort_in_section {tbl : List (Str × Nat)} (hsmall : ∀ e ∈ tbl, (e.2 : Int) < maxSize)
    (hinc : tbl.Pairwise fun a b => a.2 < b.2) {names : List Str} (hn : tbl.map (·.1) = names) (hne : comps ≠ [])
    {ks' : List Node} (h : Ordered names ks ks') (hh : Host comps n ks') :
    InSection comps pos n ks (sortKeys (absPath comps) tbl) () ks' [] := by
  intro c hc
  have := C32_sort_subtree c.v1 tbl comps hc.path hne
  rw [hc.place] at this
  obtain ⟨root', h1, h2⟩ := this
  have h3 : ChildrenChanged (Becomes ks') pos c.v1.root root' := by
    obtain ⟨m, ks2, hm, hs, rfl⟩ := changed_setKids h2
    rw [hc.node] at hm
    injection hm with hm
    subst hm
    have : ks2 = ks' := C32_unique hs ((ordered_by_table hsmall hinc hn h) ▸ C32_stable_sort _ _)
    rw [this]
    exact setKids_changed hc.node ks'
  refine ⟨{ c with v1 := { c.v1 with root := root' } }, ?_, ⟨rfl, h3, ⟨rfl, rfl, rfl⟩, rfl⟩, ?_⟩
  · simp only [sortKeys, edit, h1]
  · rw [becomes_eq h3]
    exact hc.set hh rfl

/-! ## About -/

theorem licence_in_section {W : ConvWorld} (hc : ∀ x ∈ comps, Component x) (hn : ∀ ks, Host comps n ks) {ks' : List Node}
    {says : List (Category × Str)} (h : LicenceFixed E (findLicense W.close W.db) comps ks ks' says) :
    InSection comps pos n ks (fixLicense E W (absPath comps)) () ks' says := by
  have hk : KeyName §"license" := by decide
  unfold fixLicense
  rw [path_key hc hk.1 (Or.inl rfl) (Or.inl rfl)]
  cases h with
  | missing ha => exact InSection.bind0 (InSection.valueAbsent hk ha _) (InSection.say _ _)
  | empty h1 h2 h3 => exact InSection.bind0 (InSection.value hk h1 h2 h3 _) (InSection.say _ _)
  | unknown h1 h2 h3 h4 =>
    refine InSection.bind0 (InSection.value hk h1 h2 h3 _) ?_
    refine InSection.ite_false (by simp) ?_
    refine InSection.bind0 (InSection.askOk (x := none) fun c _ => by simp [matchLicense, h4]) ?_
    exact InSection.say _ _
  | @correct _ _ _ old h1 h2 h3 h4 =>
    refine InSection.bind0 (InSection.value hk h1 h2 h3 _) ?_
    refine InSection.ite_false (by simp) ?_
    refine InSection.bind0 (InSection.askOk (x := some old) fun c _ => by simp [matchLicense, h4]) ?_
    exact InSection.ite_false (by simp) (InSection.pure ())
  | @corrected _ _ _ _ old new h1 h2 hb h3 h4 h5 h6 =>
    refine InSection.bind0 (InSection.value hk h1 h2 h3 _) ?_
    refine InSection.ite_false (by simp) ?_
    refine InSection.bind0 (InSection.askOk (x := some new) fun c _ => by simp [matchLicense, h4]) ?_
    refine InSection.ite_true (by simpa using h5) ?_
    refine InSection.bind (s1 := []) (InSection.replace hk h1 h2 hb (by simp) h6 (hn _)) ?_
    exact InSection.say _ _

theorem joinStr_intercalate (sep : Str) : ∀ ps : List Str, joinStr sep ps = List.intercalate sep ps
  | [] => rfl
  | [p] => by simp [joinStr, List.intercalate, List.intersperse]
  | p :: q :: ps => by
    rw [joinStr, joinStr_intercalate sep (q :: ps)]
    simp [List.intercalate, List.intersperse]

theorem joinLines_texts (ts : List Str) : joinLines (ts.map .str) = .ok (List.intercalate §"\n" ts) := by
  unfold joinLines
  rw [if_pos (by simp), ← joinStr_intercalate]
  simp only [List.map_map]
  congr
  have : (pyStr ∘ PyVal.str) = id := by funext s; rfl
  rw [this, List.map_id]

theorem summary_in_section (hc : ∀ x ∈ comps, Component x) (hn : ∀ ks, Host comps n ks) {ks' : List Node}
    (h : SummaryJoined E ks ks') : InSection comps pos n ks (joinSummary E (absPath comps)) () ks' [] := by
  have hk : KeyName §"summary" := by decide
  unfold joinSummary
  rw [path_key hc hk.1 (Or.inl rfl) (Or.inl rfl)]
  cases h with
  | none ha => exact InSection.bind0 (InSection.valueAbsent hk ha _) (InSection.pure ())
  | @one _ _ _ v h1 h2 h3 h4 =>
    refine InSection.bind0 (InSection.value hk h1 h2 h3 _) ?_
    cases v with
    | list xs => exact absurd rfl (h4 xs)
    | _ => exact InSection.pure ()
  | several h1 h2 hb h3 h4 =>
    refine InSection.bind0 (InSection.value hk h1 h2 h3 _) ?_
    refine InSection.bind0 (InSection.askOk fun c _ => joinLines_texts _) ?_
    exact (InSection.replace hk h1 h2 hb (by simp) h4 (hn _)).void

theorem about_in_section {W : ConvWorld} (hc : ∀ x ∈ comps, Component x) (hn : ∀ ks, Host comps n ks) {ks' : List Node}
    {says : List (Category × Str)} (h : AboutUpgraded E (findLicense W.close W.db) (Host comps n) comps ks ks' says) :
    InSection comps pos n ks (do
      each (fun (o : Str × Str) => patchMoveBase E (absPath comps) o.1 o.2) aboutRenames
      fixLicense E W (absPath comps)
      joinSummary E (absPath comps)
      patchDeprecated E (absPath comps) aboutDeprecated) () ks' says := by
  obtain ⟨ks1, ks2, ks3, s, h1, h2, h3, h4, rfl, rfl⟩ := h.steps
  refine InSection.bind (x := ()) (s1 := []) ?_ ?_ (ks1 := ks1)
  · have := renames_in_section (pos := pos) id (fun _ => Or.inl rfl) (Or.inl rfl) hc _ _ _ (by decide) h1
    exact this
  · refine InSection.bind (licence_in_section hc hn h2) ?_
    refine InSection.bind (s1 := []) (summary_in_section hc hn h3) ?_
    exact dropFields_in_section (Or.inl rfl) hc hn _ _ (by decide) h4

/-! ## Source -/

theorem warnIf_in_section {x : Str} (hx : KeyName x) (m : Str) {K : Act Unit} {ks' : List Node} {s : List (Category × Str)}
    (hc : ∀ x ∈ comps, Component x) (hK : InSection comps pos n ks K () ks' s) : InSection comps pos n ks (do
      if ← hasPath (Recipe.appendToPath (absPath comps) x) then say .warning m
      K) () ks' ((if Absent x ks then [] else [(.warning, m)]) ++ s) := by
  rw [path_key hc hx.1 (Or.inl rfl) (Or.inr rfl)]
  rcases absent_or_first x ks with ha | ⟨a, k, b, hk, hf⟩
  · rw [if_pos ha]
    exact InSection.bind0 (InSection.noKey hx ha) hK
  · rw [if_neg (fun ha => ha k (by simp [hk]) hf.named)]
    exact InSection.bind0 (InSection.key hx hk hf) (InSection.bind (InSection.say _ _) hK)

theorem source_in_section (hc : ∀ x ∈ comps, Component x) (hne : comps ≠ []) {ks' : List Node}
    {says : List (Category × Str)} (h : SourceUpgraded E (Host comps n) ks ks' says) :
    InSection comps pos n ks (upgradeSource E (absPath comps)) () ks' says := by
  obtain ⟨ks1, h1, h2, h3⟩ := h.steps
  have e3 : InSection comps pos n ks (do
      each (fun (o : Str × Str) => patchMoveBase E (absPath comps) o.1 o.2) sourceRenames
      sortKeys (absPath comps) sourceOrder) () ks' [] := by
    refine InSection.bind (x := ()) (s1 := []) (s2 := []) (ks1 := ks1) ?_ (sort_in_section (by decide) (by decide) rfl hne h2 h3)
    have := renames_in_section (pos := pos) (fun x => '/' :: x) (fun _ => Or.inr rfl) (Or.inl rfl) hc _ _ _ (by decide) h1
    exact this
  have := warnIf_in_section (x := §"svn_url") (by decide) §"SVN packages are no longer supported in the V1 format" hc
    (warnIf_in_section (x := §"hg_url") (by decide)
      §"HG (Mercurial) packages are no longer supported in the V1 format" hc e3)
  rw [List.append_nil, ← h.says_eq] at this
  exact this

/-! ## Build -/

theorem length_splitChar (c : Char) : ∀ s : Str, (splitChar c s).length = s.count c + 1
  | [] => rfl
  | a :: s => by
    rw [splitChar]
    have ih := length_splitChar c s
    by_cases h : a = c
    · subst h; simp [ih]
    · rw [if_neg h]
      have hc : List.count c (a :: s) = List.count c s := by simp [h]
      rw [hc, ← ih]
      cases hs : splitChar c s with
      | nil => exact absurd hs (splitChar_ne_nil c s)
      | cons p ps => rfl

/-- What an entry does to the environment and the secrets collected so far. -/
def Spec.EnvEntry.apply : EnvEntry → ScriptEnv → ScriptEnv
  | .secret v, acc => (acc.1, acc.2 ++ [v])
  | .assign k v, acc => (insertD k (.str v) acc.1, acc.2)
  | .message _, acc => acc

theorem envItem_in_section {path : Str} {x : PyVal} {e : EnvEntry} (h : ReadEnv path x e) (acc : ScriptEnv) :
    InSection comps pos n ks (scriptEnvItem path x acc) (e.apply acc) ks (envMessages [e]) := by
  unfold scriptEnvItem
  cases h with
  | secret hs =>
    refine InSection.bind0 (InSection.askOk fun c _ => rfl) ?_
    rw [splitChar_of_not_mem _ _ hs]
    exact InSection.pure _
  | assign ha hb =>
    refine InSection.bind0 (InSection.askOk fun c _ => rfl) ?_
    rw [splitChar_append_sep _ _ ha, splitChar_of_not_mem _ _ hb]
    exact InSection.pure _
  | @unreadable a b c' =>
    refine InSection.bind0 (InSection.askOk fun c _ => rfl) ?_
    have hl : 3 ≤ ((splitChar '=' (a ++ '=' :: b ++ '=' :: c')).map strip).length := by
      rw [List.length_map, length_splitChar]
      simp
      omega
    generalize ((splitChar '=' (a ++ '=' :: b ++ '=' :: c')).map strip) = ts at *
    match ts, hl with
    | _ :: _ :: _ :: _, _ =>
      exact InSection.bind (s2 := []) (InSection.say _ _) (InSection.pure _)
  | when h1 h2 =>
    simp only [h1]
    refine InSection.bind0 (InSection.askOk fun c _ => rfl) ?_
    refine InSection.ite_true ?_ (InSection.pure _)
    rw [List.length_map, splitChar_of_not_mem _ _ h2]; rfl
  | whenAssign h1 h2 =>
    simp only [h1]
    refine InSection.bind0 (InSection.askOk fun c _ => rfl) ?_
    refine InSection.ite_false ?_ (InSection.bind (s2 := []) (InSection.say _ _) (InSection.pure _))
    rw [List.length_map, length_splitChar]
    have := List.count_pos_iff.2 h2
    omega
  | noThen h1 =>
    simp only [h1]
    exact InSection.bind (s2 := []) (InSection.say _ _) (InSection.pure _)

theorem envMessages_cons (e : EnvEntry) (es : List EnvEntry) : envMessages (e :: es) = envMessages [e] ++ envMessages es := by
  cases e <;> rfl

theorem envLoop_in_section {path : Str} {xs : List PyVal} {es : List EnvEntry} (h : ReadEnvs path xs es) :
    ∀ acc, InSection comps pos n ks (scriptEnvLoop path xs acc) (environment acc.1 es, acc.2 ++ secrets es) ks (envMessages es) := by
  induction h with
  | nil => intro acc; simp only [environment, secrets, List.append_nil]; exact InSection.pure _
  | @cons x xs e es h1 _ ih =>
    intro acc
    rw [envMessages_cons]
    refine InSection.bind (envItem_in_section h1 acc) ?_
    have := ih (e.apply acc)
    cases e <;> simpa [EnvEntry.apply, environment, secrets] using this

theorem setKeys_eq (es : List EnvEntry) (script : Option PyVal) :
    setKeyConditionally (setKeyConditionally (setKeyConditionally [] §"env" (.dict (environment [] es))) §"secrets"
      (.list (secrets es))) §"content" (script.getD (.str [])) = scriptObject es script := by
  unfold setKeyConditionally scriptObject
  have hd : ∀ d, (PyVal.dict d).truthy = !d.isEmpty := fun _ => rfl
  have hl : ∀ d, (PyVal.list d).truthy = !d.isEmpty := fun _ => rfl
  have hs : (PyVal.str []).truthy = false := rfl
  cases h1 : environment [] es <;> cases h2 : secrets es <;> cases script <;>
    simp only [hd, hl, hs, List.isEmpty_nil, List.isEmpty_cons, Bool.not_true, Bool.not_false, Bool.false_eq_true, if_false,
      if_true, Option.getD_none, Option.getD_some, insertD, List.append_nil, List.nil_append, reduceCtorEq] <;>
    first
    | rfl
    | (rename_i v; cases hv : v.truthy <;> simp [insertD])

theorem Spec.Section.putReplace {c : Conv} (h : Section c comps pos n ks) {x : Str} (hx : KeyName x) {v : PyVal}
    (hvs : v ≠ .sentinel) {ks' : List Node} (hp : Put E x v ks ks') (ha : ¬ Absent x ks) :
    c.v1.patch E (replaceOp (absPath (comps ++ [x])) v) = (.ok true, edited c.v1 (setKids c.v1.root pos ks')) := by
  cases hp with
  | append h' _ => exact absurd h' ha
  | into h1 h2 h3 h4 => exact h.replace E hx h1 h2 h3 hvs h4

theorem InSection.valueOf {x : Str} (hx : KeyName x) {o : Option PyVal} (h : ValueOf E x ks o) (d : PyVal) :
    InSection comps pos n ks (valueAt E (absPath (comps ++ [x])) (some d)) (o.getD d) ks [] := by
  cases h with
  | absent ha => exact InSection.valueAbsent hx ha d
  | present h1 h2 h3 => exact InSection.value hx h1 h2 h3 _

theorem script_in_section (hc : ∀ x ∈ comps, Component x) {ks' : List Node} {says : List (Category × Str)}
    (h : ScriptEnvMoved E (Host comps n) comps ks ks' says) :
    InSection comps pos n ks (upgradeScript E (absPath comps)) () ks' says := by
  have hk : KeyName §"script_env" := by decide
  have hs : KeyName §"script" := by decide
  unfold upgradeScript
  rw [path_key hc hk.1 (Or.inl rfl) (Or.inl rfl)]
  cases h with
  | absent ha =>
    refine InSection.bind0 (InSection.valueAbsent hk ha _) ?_
    exact InSection.ite_false (by simp [PyVal.truthy]) (InSection.pure ())
  | empty h1 h2 =>
    refine InSection.bind0 (InSection.valueOf hk h1 _) ?_
    exact InSection.ite_false (by simpa using h2) (InSection.pure ())
  | @moved a b m xs es script h1 hne h2 h3 h4 h5 h6 h7 h8 =>
    refine InSection.bind0 (InSection.valueOf hk h1 _) ?_
    refine InSection.ite_true (by cases xs with | nil => exact absurd rfl hne | cons _ _ => simp [PyVal.truthy]) ?_
    rw [path_key hc hs.1 (Or.inl rfl) (Or.inl rfl)]
    refine InSection.bind0 (InSection.askOk (x := xs) fun c _ => rfl) ?_
    rw [show envMessages es = envMessages es ++ [] by simp]
    refine InSection.bind (envLoop_in_section h2 ([], [])) ?_
    refine InSection.bind0 (InSection.valueOf hs h3 _) ?_
    simp only [List.nil_append, setKeys_eq]
    refine InSection.bind (x := true) (s1 := []) (s2 := []) (ks1 := a ++ m :: b) ?_ (InSection.remove hk rfl h6 h7 h8).void
    by_cases ht : (script.getD (.str [])).truthy
    · rw [if_pos ht]
      refine InSection.patched h5 fun c hc => hc.putReplace hs (by simp) h4 fun ha => ?_
      cases h3 with
      | absent _ => simp [PyVal.truthy] at ht
      | present e1 e2 _ => exact absurd e2.named (ha _ (by rw [e1]; simp))
    · rw [if_neg ht]
      exact InSection.patched h5 fun c hc => hc.put E hs (by simp) h4

theorem build_in_section (hc : ∀ x ∈ comps, Component x) (hn : ∀ ks, Host comps n ks) (hne : comps ≠ []) {ks' : List Node}
    {says : List (Category × Str)} (h : BuildUpgraded E (Host comps n) comps ks ks' says) :
    InSection comps pos n ks (do
      patchMoveBase E (absPath comps) §"merge_build_host" §"merge_build_and_host_envs"
      patchMoveBase E (absPath comps) §"no_link" §"always_copy_files"
      patchMoveNew E (absPath comps) §"/entry_points" §"/python"
      patchMoveNew E (absPath comps) §"/ignore_prefix_files" §"/prefix_detection" (some §"/ignore")
      patchMoveNew E (absPath comps) §"/detect_binary_files_with_prefix" §"/prefix_detection" (some §"/ignore_binary_files")
      patchMoveNew E (absPath comps) §"/rpaths" §"/dynamic_linking" (some §"/rpaths")
      patchMoveNew E (absPath comps) §"/binary_relocation" §"/dynamic_linking" (some §"/binary_relocation")
      patchMoveNew E (absPath comps) §"/missing_dso_whitelist" §"/dynamic_linking" (some §"/missing_dso_allowlist")
      patchMoveNew E (absPath comps) §"/runpath_whitelist" §"/dynamic_linking" (some §"/rpath_allowlist")
      upgradeScript E (absPath comps)
      patchDeprecated E (absPath comps) buildDeprecated
      sortKeys (absPath comps) buildOrder) () ks' says := by
  obtain ⟨k1, k2, k3, k4, k5, k6, k7, k8, k9, s, h1, h2, h3, h4, h5, h6, h7, h8, h9, h10, h11, rfl⟩ := h.steps
  cases h1 with
  | cons ha h1 =>
  cases h1 with
  | cons hb h1 =>
  cases h1
  refine InSection.bind (s1 := []) (rename_in_section (by decide) (by decide) (by decide) (Or.inl rfl) (Or.inr rfl)
    (Or.inr rfl) ha hc) ?_
  refine InSection.bind (s1 := []) (rename_in_section (by decide) (by decide) (by decide) (Or.inl rfl) (Or.inr rfl)
    (Or.inr rfl) hb hc) ?_
  have mv : ∀ {ks ks' : List Node} {old g new : Str}, KeyName old → KeyName g → KeyName new → old ≠ g →
      MovedBelow E (Host comps n) old g new ks ks' → InSection comps pos n ks
        (patchMoveNew E (absPath comps) ('/' :: old) ('/' :: g) (some ('/' :: new))) () ks' [] :=
    fun h1 h2 h3 h4 h => moveBelow_in_section h1 h2 h3 h4 (Or.inl rfl) rfl rfl rfl hc h
  refine InSection.bind (s1 := []) (mv (by decide) (by decide) (by decide) (by decide) h2) ?_
  refine InSection.bind (s1 := []) (mv (by decide) (by decide) (by decide) (by decide) h3) ?_
  refine InSection.bind (s1 := []) (mv (by decide) (by decide) (by decide) (by decide) h4) ?_
  refine InSection.bind (s1 := []) (mv (by decide) (by decide) (by decide) (by decide) h5) ?_
  refine InSection.bind (s1 := []) (mv (by decide) (by decide) (by decide) (by decide) h6) ?_
  refine InSection.bind (s1 := []) (mv (by decide) (by decide) (by decide) (by decide) h7) ?_
  refine InSection.bind (s1 := []) (mv (by decide) (by decide) (by decide) (by decide) h8) ?_
  refine InSection.bind (script_in_section hc h9) ?_
  rw [show (dropFields obsoleteInBuild k9).2.map (unsupported comps) =
    (dropFields obsoleteInBuild k9).2.map (unsupported comps) ++ [] by simp]
  refine InSection.bind (dropFields_in_section (Or.inl rfl) hc hn _ _ (by decide) h10) ?_
  exact sort_in_section (by decide) (by decide) rfl hne h11 (hn _)

end steps

end Crm

import Verif.Spec.BumpFile
import Verif.Props.DocEdit
import Verif.Props.BumpOrder
import Verif.Lemmas.SelEdit
import Verif.Props.Paths

/-! # `bump-recipe` on a document -/

namespace Crm
open Spec Doc

/-! ## Clean-up -/

theorem noHashType_kept {text : Str} {variants : List Str} (hp : variants.Perm hashTypeLines) (h : NoHashType text) :
    preProcessRemoveHashType variants text = text := by
  have hfold : ∀ vs : List Str, (∀ v ∈ vs, v ∈ hashTypeLines) →
      vs.foldl (fun content variant => replaceAll variant [] content) text = text := by
    intro vs
    induction vs with
    | nil => intro _; rfl
    | cons v vs ih =>
      intro hv
      rw [List.foldl_cons, replaceAll_absent v [] text (h v (List.mem_append_left _ (hv v (by simp))))]
      exact ih (fun v hm => hv v (by simp [hm]))
  unfold preProcessRemoveHashType
  rw [hfold variants (fun v hv => hp.mem_iff.1 hv)]
  have := subGo_copy Regex.preProcessHashTypeKey (fun _ => §"sha256:") text [] [] (by
    rintro a c u hpre t ⟨bef', hL⟩ hpf
    rw [List.append_nil] at hpf
    refine h t (List.mem_append_right _ ((hashKey_lang _ _).1 hL)) ?_
    rw [hpre]
    exact hpf.isInfix.trans (List.suffix_append a (c :: u)).isInfix)
  rw [List.append_nil] at this
  unfold Rx.sub
  rw [this]
  simp [Rx.subGo]

/-! ## The recipe in memory -/

/-- The recipe in memory stands for the definitions and the document. -/
structure Stands (sc : Schema) (vars : List (Str × PyVal)) (ds : List Doc) (r : Recipe) : Prop where
  tree : ∃ ns, r.root = { value := .str §"/", children := ns } ∧ ShowsL ds ns
  vars : r.vars = vars
  schema : r.schema = sc

/-- The recipe is the one that the file with the definitions and the document gives. -/
structure Stored (E : Env) (sc : Schema) (vars : List (Str × PyVal)) (ds : List Doc) (o : Recipe) : Prop where
  fine : OkL E ds
  root : o.root = Doc.root ds
  vars : o.vars = vars
  schema : o.schema = sc

variable {sc : Schema}

theorem Spec.Opened.stored {E : Env} {vars : List (Str × PyVal)} {ds : List Doc} {o : Recipe} (h : Opened E vars ds o) :
    Stored E .v0 vars ds o := by
  obtain ⟨r, h1, h2, h3, h4, _⟩ := open_v0 h.definitions h.document h.format
  have := h.opened
  rw [h1] at this
  injection this with this
  subst this
  exact ⟨h.document.1, h3, h4, h2⟩

theorem Stored.stands {E : Env} {vars : List (Str × PyVal)} {ds : List Doc} {o : Recipe} (h : Stored E sc vars ds o) :
    Stands sc vars ds o := ⟨⟨nodes ds, h.root, shows_nodes ds⟩, h.vars, h.schema⟩

theorem stands_rel {E : Env} {vars : List (Str × PyVal)} {ds : List Doc} {r o : Recipe} (h : Stands sc vars ds r) (ho : Stored E sc vars ds o) :
    Rel E r.root o.root := by
  obtain ⟨ns, h1, h2⟩ := h.tree
  rw [h1, ho.root]
  exact .sec _ _ false ds ns ho.fine h2 (by simp) (by simp)

theorem stands_value {E : Env} {vars : List (Str × PyVal)} {ds : List Doc} {r o : Recipe} (h : Stands sc vars ds r) (ho : Stored E sc vars ds o)
    (path : Str) (default : Option PyVal) (subVars : Bool) : r.getValue E path default subVars = o.getValue E path default subVars := by
  have h2 := ho.vars
  have h3 := ho.schema
  unfold Recipe.getValue Recipe.ctx
  rw [h.vars, h.schema, h2, h3]
  exact rel_value (stands_rel h ho) path default _

theorem stands_contains {E : Env} {vars : List (Str × PyVal)} {ds : List Doc} {r o : Recipe} (h : Stands sc vars ds r) (ho : Stored E sc vars ds o)
    (path : Str) : r.containsValue path = o.containsValue path := by
  unfold Recipe.containsValue
  cases hst : strToStack path with
  | error e => rfl
  | ok stack =>
    simp only [bind, Except.bind]
    match stack with
    | [] => rfl
    | [p] => rfl
    | p :: q :: rest => simp only [traverse, traverseRec_locate, (rel_locate (q :: rest) (stands_rel h ho)).1]

/-! ### What is visited -/

/-- Values and paths. -/
def vps (l : List (Node × List Str)) : List (PyVal × List Str) := l.map fun np => (np.1.value, np.2)

theorem shows_visitPath {d : Doc} {n : Node} (h : Shows d n) (p : Option (List Str)) (i : Nat) : visitPath p i n = visitPath p i d.node := by
  obtain ⟨h1, h2, h3, h4, h5, h6, h7⟩ := shows_same h
  unfold visitPath
  cases p with
  | none => rfl
  | some p => unfold Node.isEmptyKey; rw [h1, h2, h3, h5]

theorem virtToPhysGo_sig : ∀ (cs cs' : List Node) (k : Nat), cs.map sig = cs'.map sig → virtToPhysGo k cs = virtToPhysGo k cs'
  | [], [], _, _ => rfl
  | [], _ :: _, _, h => by cases h
  | _ :: _, [], _, h => by cases h
  | c :: cs, c' :: cs', k, h => by
    simp only [List.map_cons, List.cons.injEq, sig, Prod.mk.injEq, real] at h
    have hc : c.isComment = c'.isComment := by
      have := h.1.2.1
      cases h1 : c.isComment <;> cases h2 : c'.isComment <;> simp_all
    simp only [virtToPhysGo, hc, virtToPhysGo_sig cs cs' (k + 1) h.2]

theorem virtToPhys_congr {cs cs' : List Node} (h : cs.map sig = cs'.map sig) : virtToPhys cs = virtToPhys cs' := virtToPhysGo_sig cs cs' 0 h

theorem physToVirt_congr {cs cs' : List Node} (h : cs.map sig = cs'.map sig) : physToVirt cs = physToVirt cs' := by
  have hlen : cs.length = cs'.length := by simpa using congrArg List.length h
  unfold physToVirt
  rw [virtToPhys_congr h, hlen]

mutual
theorem visit_shows : ∀ (d : Doc) (n : Node) (p : Option (List Str)) (i : Nat), Shows d n → vps (visit p i n) = vps (visit p i d.node)
  | .comment t, n, p, i, h => by obtain rfl := h; rfl
  | .empty k c, n, p, i, h => by obtain rfl := h; rfl
  | .multi k m c body, n, p, i, h => by obtain rfl := h; rfl
  | .item vt v c, n, p, i, h => by obtain rfl := h; rfl
  | .scalar k vt v c, n, p, i, h => by
    have hp := shows_visitPath h p i
    obtain ⟨c', rfl⟩ := h
    simp only [node, visit, vps, List.map_cons, hp] at hp ⊢
  | .block k c cs, n, p, i, h => by
    have hp := shows_visitPath h p i
    obtain ⟨ns, rfl, hns⟩ := h
    simp only [node, visit, vps, List.map_cons, hp] at hp ⊢
    have := visitL_shows cs ns (visitPath p i ⟨.str k, c, nodes cs, false, .no, true⟩) (physToVirt (nodes cs)) hns
    simp only [vps] at this
    rw [physToVirt_congr (sig_showsL hns), this]
  | .elem first rest, n, p, i, h => by
    have hp := shows_visitPath h p i
    obtain ⟨c', m, ns, rfl, hm, hns⟩ := h
    have hs : (m :: ns).map sig = (first.node :: nodes rest).map sig := by
      simp only [List.map_cons, sig_shows hm, sig_showsL hns]
    simp only [node, visit, vps, List.map_cons, hp] at hp ⊢
    rw [physToVirt_congr hs]
    congr 1
    cases physToVirt (first.node :: nodes rest) with
    | nil => rfl
    | cons j js =>
      have h1 := visit_shows first m (some (visitPath p i ⟨.sentinel, first.trail, first.node :: nodes rest, true, .no, false⟩)) j hm
      have h2 := visitL_shows rest ns (visitPath p i ⟨.sentinel, first.trail, first.node :: nodes rest, true, .no, false⟩) js hns
      simp only [vps, visitL, List.map_append] at h1 h2 ⊢
      rw [h1, h2]
theorem visitL_shows : ∀ (ds : List Doc) (ns : List Node) (p : List Str) (is : List Nat), ShowsL ds ns →
    vps (visitL p is ns) = vps (visitL p is (nodes ds))
  | [], ns, p, is, h => by obtain rfl := h; cases is <;> rfl
  | d :: ds, ns, p, is, h => by
    obtain ⟨m, ms, rfl, hm, hms⟩ := h
    cases is with
    | nil => rfl
    | cons i is =>
      have h1 := visit_shows d m (some p) i hm
      have h2 := visitL_shows ds ms p is hms
      simp only [vps, nodes, visitL, List.map_append] at h1 h2 ⊢
      rw [h1, h2]
end

theorem stands_references {E : Env} {vars : List (Str × PyVal)} {ds : List Doc} {r o : Recipe} (h : Stands sc vars ds r)
    (ho : Stored E sc vars ds o) (v : Str) : r.getVariableReferences v = o.getVariableReferences v := by
  have h1 := ho.root
  have h2 := ho.vars
  have h3 := ho.schema
  obtain ⟨ns, hr, hs⟩ := h.tree
  have hv : vps (visitAll r.root) = vps (visitAll o.root) := by
    rw [h1, hr]
    unfold visitAll Doc.root
    simp only [visit, vps, List.map_cons]
    have := visitL_shows ds ns [rootValue] (physToVirt (nodes ds)) hs
    simp only [vps] at this
    rw [physToVirt_congr (sig_showsL hs)]
    simp only [visitPath]
    rw [this]
  have key : ∀ (f : PyVal → Bool) (l : List (Node × List Str)), (l.filter fun np => f np.1.value).map (stackToStr ·.2) =
      ((vps l).filter fun np => f np.1).map (stackToStr ·.2) := by
    intro f l
    induction l with
    | nil => rfl
    | cons np l ih =>
      simp only [vps, List.map_cons, List.filter_cons] at ih ⊢
      split <;> simp [ih]
  have key2 := fun f => (key f (visitAll r.root)).trans ((by rw [hv]) : _ = _) |>.trans (key f (visitAll o.root)).symm
  unfold Recipe.getVariableReferences
  rw [h.vars, h2, h.schema, h3]
  split
  · rfl
  · exact congrArg dedupe (key2 fun x => match x with | .str s => (varRefRx sc v).test s | _ => false)

theorem stands_fetchers {E : Env} {vars : List (Str × PyVal)} {ds : List Doc} {r o : Recipe} (h : Stands sc vars ds r)
    (ho : Stored E sc vars ds o) (b : Bool) : fetchersOf E r b = fetchersOf E o b := by
  have hs : r.schema = o.schema := h.schema.trans ho.schema.symm
  have hn : r.getRecipeName E = o.getRecipeName E := by
    unfold Recipe.getRecipeName rootNamePath
    have hm : r.isMultiOutput = o.isMultiOutput := by
      unfold Recipe.isMultiOutput
      rw [stands_contains h ho]
    simp only [stands_value h ho, h.schema, ho.schema, hm]
  unfold fetchersOf
  rw [stands_value h ho, hn, hs]

/-! ## Setting a key -/

theorem within_located {k vt : Str} {old : PyVal} {c : Str} {w : PyVal} {path : List Str} {ds ds' : List Doc} {n : Node}
    (h : Within (ScalarBecomes k vt old c w) path ds ds') (hk : isDigitS k = false) (hs : ShowsL ds n.children) :
    ∃ c', lookup n (path ++ [k]) = some { value := .str k, comment := c', key := true, children := [{ value := old, comment := c }] } := by
  obtain ⟨pos, m, cs, cs', h1, h2, h3, h4, _⟩ := within_place h n hs
  obtain ⟨pre, post, rfl, rfl, hf⟩ := h4
  obtain ⟨x, md, y, hch, hx, hmd, hy⟩ := showsL_split h3
  obtain ⟨c', rfl⟩ := hmd
  have hidx := childIdx_key hk hch (showsL_fresh hx hf) rfl
  refine ⟨c', ?_⟩
  rw [← locate_lookup, locate_concat, h1, Option.bind_some, h2, Option.bind_some, hidx]
  simp only [Option.map_some, Option.bind_some]
  rw [nodeAt_append, h2, Option.bind_some]
  simp [nodeAt, hch]

theorem within_missing {k : Str} {new : Doc} {path : List Str} {ds ds' : List Doc} {n : Node}
    (h : Within (EndsFresh k new) path ds ds') (hk : isDigitS k = false) (hs : ShowsL ds n.children) : lookup n (path ++ [k]) = none := by
  obtain ⟨pos, m, cs, cs', h1, h2, h3, h4, _⟩ := within_place h n hs
  obtain ⟨hf, rfl⟩ := h4
  have hnone : childIdx m k = none := by
    simp only [childIdx, hk, Bool.false_eq_true, if_false]
    rw [List.findIdx?_eq_none_iff]
    intro n hn
    simpa using showsL_fresh h3 hf n hn
  rw [← locate_lookup, locate_concat, h1, Option.bind_some, h2, Option.bind_some, hnone]
  rfl

theorem within_nonempty {R : List Doc → List Doc → Prop} {path : List Str} {ds ds' : List Doc} (h : Within R path ds ds') (hp : path ≠ []) :
    ds ≠ [] := by
  cases h with
  | here => exact absurd rfl hp
  | key => simp
  | element => simp

theorem stands_edit {E : Env} {vars : List (Str × PyVal)} {ds ds' : List Doc} {r : Recipe} {p : PyVal} (h : Stands sc vars ds r)
    (he : DocEdit E p ds ds') : ∃ r', r.patch E p = (.ok true, r') ∧ Stands sc vars ds' r' := by
  obtain ⟨ns, hr, hs⟩ := h.tree
  obtain ⟨ns', h1, h2⟩ := docEdit_patch he r ns hr hs
  exact ⟨_, h1, ⟨ns', rfl, h2⟩, h.vars, h.schema⟩

theorem absPath_ne {cs : List Str} (h : cs ≠ []) : absPath cs ≠ [] := by
  cases cs with
  | nil => exact absurd rfl h
  | cons c cs => simp [absPath]

theorem keySet_step {E : Env} {v : PyVal} {k : Str} {path : List Str} {ch : LineChange} {vars : List (Str × PyVal)} {ds ds' : List Doc}
    {r : Recipe} (h : KeySet E v k path ch ds ds') (hr : Stands sc vars ds r) (hc : ∀ c ∈ path ++ [k], Component c)
    (hk : isDigitS k = false) (hd : k ≠ §"-") (hp : path ≠ []) (hv : v ≠ .sentinel) :
    ∃ present, r.containsValue (absPath (path ++ [k])) = .ok present ∧ (present = false ↔ ∃ b, ch = .added b) ∧
      ∀ op, (op = §"add" ∨ (op = §"replace" ∧ present = true)) →
        ∃ r', exitOnFailedPatch E r (valuePatch op (absPath (path ++ [k])) v) = .ok r' ∧ Stands sc vars ds' r' := by
  have hmk : ∀ op, op = §"add" ∨ op = §"replace" → IsPatch (valuePatch op (absPath (path ++ [k])) v) op (absPath (path ++ [k])) :=
    fun op hop => isPatch_mk op _ v hop (absPath_ne (by simp)) hv
  have hf : ∀ op, field (valuePatch op (absPath (path ++ [k])) v) §"value" = some v := fun op => by simp [field, valuePatch, lookupD]
  have fin : ∀ op, DocEdit E (valuePatch op (absPath (path ++ [k])) v) ds ds' →
      ∃ r', exitOnFailedPatch E r (valuePatch op (absPath (path ++ [k])) v) = .ok r' ∧ Stands sc vars ds' r' := by
    intro op he
    obtain ⟨r', h1, h2⟩ := stands_edit hr he
    exact ⟨r', exitOnFailedPatch_ok.2 h1, h2⟩
  obtain ⟨ns, hroot, hs⟩ := hr.tree
  have hs' : ShowsL ds r.root.children := by rw [hroot]; exact hs
  have hcl := C04_contains_iff_lookup r (path ++ [k]) hc (by simp)
  cases h with
  | @replaced vt old c w _ _ hsc hw =>
    obtain ⟨c', hl⟩ := within_located hw hk hs'
    have hw' : Within (KeyBecomes k [scalar k (yamlText w) w []]) path ds ds' := by
      refine within_mono hw ?_
      rintro cs cs' ⟨pre, post, rfl, rfl, hf⟩
      exact ⟨pre, _, post, rfl, by simp, rfl, hf⟩
    refine ⟨true, by rw [hcl, hl]; rfl, by simp, ?_⟩
    rintro op (rfl | ⟨rfl, _⟩)
    · exact fin _ (.overwriteKey path k v w hc hk hd (hmk _ (Or.inl rfl)) (hf _) hsc hw')
    · exact fin _ (.replaceKey path k v w hc hk (hmk _ (Or.inr rfl)) (hf _) hsc hw')
  | added hcol hw =>
    refine ⟨false, by rw [hcl, within_missing hw hk hs']; rfl, by simp, ?_⟩
    rintro op (rfl | ⟨_, h⟩)
    · exact fin _ (.addKey path k v _ hc hk hd (hmk _ (Or.inl rfl)) (hf _) hcol (within_nonempty hw hp) hw)
    · cases h

theorem replaced_step {E : Env} {vt k : Str} {old w v : PyVal} {c : Str} {path : List Str} {vars : List (Str × PyVal)} {ds ds' : List Doc}
    {r : Recipe} (hsc : Scalar E v w) (hw : Within (ScalarBecomes k vt old c w) path ds ds') (hr : Stands sc vars ds r)
    (hc : ∀ c ∈ path ++ [k], Component c) (hk : isDigitS k = false) (hd : k ≠ §"-") (hp : path ≠ []) (hv : v ≠ .sentinel) :
    r.containsValue (absPath (path ++ [k])) = .ok true ∧
      ∃ r', exitOnFailedPatch E r (valuePatch §"replace" (absPath (path ++ [k])) v) = .ok r' ∧ Stands sc vars ds' r' := by
  obtain ⟨present, h1, h2, h3⟩ := keySet_step (.replaced hsc hw) hr hc hk hd hp hv
  have : present = true := by
    cases present with
    | true => rfl
    | false => obtain ⟨b, hb⟩ := h2.1 rfl; cases hb
  subst this
  exact ⟨h1, h3 _ (Or.inr ⟨rfl, rfl⟩)⟩

/-! ## The number -/

theorem getValue_whole {E : Env} {r : Recipe} {comps : List Str} {k c c' : Str} {v : PyVal} {n : Int} (hc : ∀ c ∈ comps, Component c)
    (hne : comps ≠ []) (hl : lookup r.root comps = some { value := .str k, comment := c', key := true, children := [{ value := v, comment := c }] })
    (hk : k ≠ §"/") (hn : wholeNumber v = some n) : r.getValue E (absPath comps) = .ok v := by
  unfold Recipe.getValue getValueIn
  simp only [strToStack_absPath _ hne hc, bind, Except.bind, traverse_locate]
  rw [locate_lookup, hl]
  have hs : v ≠ .sentinel := by rintro rfl; cases hn
  have hleaf : (⟨v, c, [], false, .no, false⟩ : Node).isLeaf = true := by
    have : (⟨v, c, [], false, .no, false⟩ : Node).isSentinel = false := by
      cases v <;> first | rfl | exact absurd rfl hs
    simp [Node.isLeaf, Node.isComment, this]
  have hsk : (⟨.str k, c', [⟨v, c, [], false, .no, false⟩], false, .no, true⟩ : Node).isSingleKey = true := by
    simp [Node.isSingleKey, hleaf]
  have hrt : (⟨.str k, c', [⟨v, c, [], false, .no, false⟩], false, .no, true⟩ : Node).isRoot = false := by
    simpa [Node.isRoot] using hk
  simp only [hsk, hrt, Bool.not_false, Bool.and_self, if_true, ne_eq, not_true_eq_false, if_false]
  cases v <;> first | rfl | cases hn

theorem numberBumped_step {E : Env} {raise : Bool} {ch : LineChange} {vars : List (Str × PyVal)} {ds ds' : List Doc} {r : Recipe} {v : PyVal}
    (h : NumberBumped E raise ch ds ds') (hr : Stands sc vars ds r) (hb : r.getValue E §"/build" = .ok v) :
    ∃ r', updateBuildNum E r raise = .ok r' ∧ Stands sc vars ds' r' := by
  unfold updateBuildNum
  rw [hb]
  simp only
  obtain ⟨ns, hroot, hs⟩ := hr.tree
  have hs' : ShowsL ds r.root.children := by rw [hroot]; exact hs
  cases h with
  | @raised vt v c n _ _ hra hn hsc hw =>
    obtain ⟨h1, r', h2, h3⟩ := replaced_step hsc hw hr comps_build (by decide) (by decide) (by simp) (by simp)
    obtain ⟨c', hl⟩ := within_located hw (by decide) hs'
    have hg : r.getValue E §"/build/number" = .ok v := getValue_whole (E := E) comps_build (by simp) hl (by decide) hn
    have h1 : r.containsValue §"/build/number" = .ok true := h1
    have h2 : exitOnFailedPatch E r (valuePatch §"replace" §"/build/number" (.int (n + 1))) = .ok r' := h2
    rw [wholeNumber_eq] at hn
    refine ⟨r', ?_, h3⟩
    simp only [h1, hg, hra, orRaise, bind, Except.bind, hn, Bool.and_self, if_true, h2]
  | reset hor hk =>
    obtain ⟨present, h1, h2, h3⟩ := keySet_step hk hr comps_build (by decide) (by decide) (by simp) (by simp)
    obtain ⟨r', h4, h5⟩ := h3 _ (Or.inl rfl)
    have h1 : r.containsValue §"/build/number" = .ok present := h1
    have h4 : exitOnFailedPatch E r (valuePatch §"add" §"/build/number" (.int 0)) = .ok r' := h4
    have hand : (raise && present) = false := by
      rcases hor with h | h
      · simp [h]
      · simp [h2.2 h]
    refine ⟨r', ?_, h5⟩
    simp only [h1, orRaise, bind, Except.bind, hand, Bool.false_eq_true, if_false, h4]

/-! ## The version -/

theorem insertD_mid {α : Type} (k : Str) (x y : α) (post : List (Str × α)) : ∀ (pre : List (Str × α)), k ∉ pre.map (·.1) →
    insertD k y (pre ++ (k, x) :: post) = pre ++ (k, y) :: post
  | [], _ => by simp [insertD]
  | (l, w) :: es, h => by
    simp only [List.map_cons, List.mem_cons, not_or] at h
    simp [insertD, Ne.symm h.1, insertD_mid k x y post es h.2]

theorem lookupD_mid {α : Type} (k : Str) (x : α) (post : List (Str × α)) : ∀ (pre : List (Str × α)), k ∉ pre.map (·.1) →
    lookupD k (pre ++ (k, x) :: post) = some x
  | [], _ => by simp [lookupD]
  | (l, w) :: es, h => by
    simp only [List.map_cons, List.mem_cons, not_or] at h
    simp [lookupD, Ne.symm h.1, lookupD_mid k x post es h.2]

theorem lookupD_missing {α : Type} (k : Str) : ∀ (d : List (Str × α)), k ∉ d.map (·.1) → lookupD k d = none
  | [], _ => rfl
  | (l, w) :: es, h => by
    simp only [List.map_cons, List.mem_cons, not_or] at h
    simp [lookupD, Ne.symm h.1, lookupD_missing k es h.2]

theorem variableSet_step {v : PyVal} {k : Str} {ch : LineChange} {vars vars' : List (Str × PyVal)} {ds : List Doc} {r : Recipe}
    (h : VariableSet v k ch vars vars') (hnd : (vars.map (·.1)).Nodup) (hr : Stands sc vars ds r) :
    (∃ old, (k, old) ∈ vars ∧ lookupD k r.vars = some old) ∧ Stands sc vars' ds (r.setVariable k v) := by
  cases h with
  | @intro pre old post =>
    have hk : k ∉ pre.map (·.1) := by
      rw [List.map_append, List.nodup_append] at hnd
      intro hm
      exact hnd.2.2 k hm k (by simp) rfl
    refine ⟨⟨old, by simp, by rw [hr.vars]; exact lookupD_mid k old post pre hk⟩, hr.tree, ?_, hr.schema⟩
    unfold Recipe.setVariable
    simp only [hr.vars]
    exact insertD_mid k old v post pre hk

theorem versionBumped_byKey_step {E : Env} {t : Str} {ch : LineChange} {vars : List (Str × PyVal)} {ds ds' : List Doc} {r : Recipe}
    (hno : §"version" ∉ vars.map (·.1)) (hk : KeySet E (.str t) §"version" [§"package"] ch ds ds') (hr : Stands sc vars ds r) :
    ∃ r', updateVersion E r t = .ok r' ∧ Stands sc vars ds' r' := by
  unfold updateVersion Recipe.getVariable
  obtain ⟨present, h1, h2, h3⟩ := keySet_step hk hr comps_package (by decide) (by decide) (by simp) (by simp)
  have h1 : r.containsValue §"/package/version" = .ok present := h1
  obtain ⟨r', h4, h5⟩ := h3 (if present then §"replace" else §"add") (by cases present <;> simp)
  have h4 : exitOnFailedPatch E r (valuePatch (if present then §"replace" else §"add") §"/package/version" (.str t)) = .ok r' := h4
  refine ⟨r', ?_, h5⟩
  have hl : lookupD §"version" r.vars = none := by rw [hr.vars]; exact lookupD_missing _ _ hno
  simp only [hl, orRaise, bind, Except.bind, h1]
  rw [if_neg (by simp)]
  exact h4

theorem versionBumped_step {E : Env} {t : Str} {ch : LineChange} {vars vars' : List (Str × PyVal)} {ds ds' : List Doc} {r : Recipe}
    (h : VersionBumped E t ch vars ds vars' ds') (hnd : (vars.map (·.1)).Nodup) (hr : Stands sc vars ds r) :
    ∃ r', updateVersion E r t = .ok r' ∧ Stands sc vars' ds' r' := by
  cases h with
  | byVariable hnn hset =>
    obtain ⟨⟨old, hm, hl⟩, h2⟩ := variableSet_step hset hnd hr
    unfold updateVersion Recipe.getVariable
    refine ⟨_, ?_, h2⟩
    simp only [hl, orRaise, bind, Except.bind]
    rw [if_pos (hnn old hm)]
  | byKey hno hk => exact versionBumped_byKey_step hno hk hr

/-! ## The hashes -/

theorem collectShas_all {sha : Str → Str} {net : Requests} : ∀ (hashes : List (List Str × Str)) (acc : List (Str × Str)),
    (∀ h ∈ hashes, sourceComps h.1) → (∀ h ∈ hashes, (getSha256 sha (net (absPath h.1))).1 = .ok h.2) →
    (acc.map (·.1) ++ hashes.map fun h => absPath (h.1 ++ [§"sha256"])).Nodup →
    collectShas sha net (hashes.map fun h => absPath h.1) acc = .ok (acc ++ hashes.map fun h => (absPath (h.1 ++ [§"sha256"]), h.2))
  | [], acc, _, _, _ => by simp [collectShas]
  | (path, s) :: hashes, acc, hs, hg, hnd => by
    have h1 := hg (path, s) (by simp)
    simp only at h1
    have happ := appendSha (hs (path, s) (by simp))
    simp only [List.map_cons, collectShas, h1, orHttpExit, bind, Except.bind]
    rw [happ]
    have hfresh : absPath (path ++ [§"sha256"]) ∉ acc.map (·.1) := by
      intro hm
      rw [List.nodup_append] at hnd
      exact hnd.2.2 _ hm _ (by simp) rfl
    rw [insertD_new _ _ _ hfresh, collectShas_all hashes _ (fun h hh => hs h (by simp [hh])) (fun h hh => hg h (by simp [hh]))
      (by simpa using hnd)]
    simp

theorem hashesSet_step {E : Env} {vars : List (Str × PyVal)} : ∀ {hashes : List (List Str × Str)} {chs : List LineChange} {ds ds' : List Doc}
    {r : Recipe}, HashesSet E hashes chs ds ds' → (∀ h ∈ hashes, sourceComps h.1) → Stands sc vars ds r →
    ∃ r', patchShas E (hashes.map fun h => (absPath (h.1 ++ [§"sha256"]), h.2)) r = .ok r' ∧ Stands sc vars ds' r' := by
  intro hashes chs ds ds' r h
  induction h generalizing r with
  | nil => intro _ hr; exact ⟨r, rfl, hr⟩
  | @cons path s rest ch chs ds ds' ds'' hk _ ih =>
    intro hs hr
    have hsc := hs (path, s) (by simp)
    obtain ⟨present, h1, h2, h3⟩ := keySet_step hk hr (shaComps hsc).1 (by decide) (by decide)
      (by rcases hsc with h | ⟨i, h⟩ <;> simp only at h <;> simp [h]) (by simp)
    obtain ⟨r', h4, h5⟩ := h3 (if present then §"replace" else §"add") (by cases present <;> simp)
    obtain ⟨r'', h6, h7⟩ := ih (fun h hh => hs h (by simp [hh])) h5
    refine ⟨r'', ?_, h7⟩
    simp only [List.map_cons, patchShas, h1, orRaise, bind, Except.bind, h4, h6]

theorem absPath_inj {a b : List Str} (ha : ∀ c ∈ a, Component c) (hb : ∀ c ∈ b, Component c) (h : absPath a = absPath b) : a = b := by
  cases a with
  | nil => cases b with
    | nil => rfl
    | cons c cs => simp [absPath] at h
  | cons c cs => cases b with
    | nil => simp [absPath] at h
    | cons d ds => exact C01_split_injective _ _ ha hb (by simp) (by simp) (by rw [h])

theorem sourceComps_comp {cs : List Str} (h : sourceComps cs) : ∀ c ∈ cs, Component c :=
  fun c hc => (shaComps h).1 c (by simp [hc])

theorem stands_hashVars {E : Env} {o r : Recipe} {vars : List (Str × PyVal)} {ds : List Doc} (ho : Stored E sc vars ds o)
    (hr : Stands sc vars ds r) : commonHashVars.filter (r.listVariables.contains ·) = hashVariables o := by
  have hlv : r.listVariables = o.listVariables := by
    unfold Recipe.listVariables
    rw [hr.vars, ho.vars]
  rw [hlv]
  unfold hashVariables commonHashVars
  exact List.filter_congr fun x _ => by simp

theorem downloaded_get {E : Env} {r : Recipe} {b : Bool} {sha : Str → Str} {net : Network} {tbl : List (Str × Fetcher)} {path s : Str}
    (ht : fetchersOf E r b = .ok tbl) (h : Downloaded sha net tbl path s) : (getSha256 sha (requests net tbl path)).1 = .ok s := by
  obtain ⟨name, url, h1, h2⟩ := h
  rw [requests_mem ht h1]
  exact h2

theorem hashesKeys_step {E : Env} {sha : Str → Str} {net : Network} {order : List Str → List Str} {o r : Recipe} {chs : List LineChange}
    {vars : List (Str × PyVal)} {ds ds' : List Doc} {tbl : List (Str × Fetcher)} {hashes : List (List Str × Str)}
    (hord : ∀ l, (order l).Perm l) (ho : Stored E sc vars ds o) (hr : Stands sc vars ds r) (ht : fetchersOf E o true = .ok tbl)
    (hno : ∀ v, ¬ hashFromVariable o tbl v) (hpaths : hashes.map (fun h => absPath h.1) = order (httpPaths tbl))
    (hnd : (hashes.map (·.1)).Nodup) (hcomp : ∀ h ∈ hashes, ∀ c ∈ h.1, Component c)
    (hg : ∀ h ∈ hashes, Downloaded sha net tbl (absPath h.1) h.2) (hset : HashesSet E hashes chs ds ds') :
    ∃ r', updateSha256 E sha net order r = .ok r' ∧ Stands sc vars ds' r' := by
  have hfil := stands_hashVars ho hr
  unfold updateSha256
  rw [stands_fetchers hr ho]
  have hcheck : checkHashVar sha (requests net tbl) r tbl = .ok none := by
    unfold checkHashVar
    rw [hfil]
    split
    · rename_i v path name url hv
      rw [if_neg]
      rintro ⟨rfl, href⟩
      exact hno v ⟨hv, ⟨name, url, rfl⟩, by rw [← stands_references hr ho]; simpa using href⟩
    · rfl
  have hsc : ∀ h ∈ hashes, sourceComps h.1 := by
    intro h hh
    have hm : absPath h.1 ∈ order (httpPaths tbl) := by rw [← hpaths]; exact List.mem_map_of_mem hh
    obtain ⟨comps, h1, h2⟩ := httpPaths_keys ht _ ((hord _).mem_iff.1 hm)
    rw [absPath_inj (hcomp h hh) (sourceComps_comp h1) h2]
    exact h1
  have hnd' : (hashes.map fun h => absPath (h.1 ++ [§"sha256"])).Nodup := by
    have : ∀ l : List (List Str × Str), (∀ h ∈ l, sourceComps h.1) → (l.map (·.1)).Nodup → (l.map fun h => absPath (h.1 ++ [§"sha256"])).Nodup := by
      intro l
      induction l with
      | nil => intros; simp
      | cons a l ih =>
        intro hl hn
        simp only [List.map_cons, List.nodup_cons, List.mem_map, not_exists, not_and] at hn ⊢
        refine ⟨?_, ih (fun h hh => hl h (by simp [hh])) hn.2⟩
        intro b hb he
        have := absPath_inj (shaComps (hl b (by simp [hb]))).1 (shaComps (hl a (by simp))).1 he
        exact hn.1 b hb (List.append_cancel_right this)
    exact this hashes hsc hnd
  obtain ⟨r', h1, h2⟩ := hashesSet_step hset hsc hr
  have hcol := collectShas_all (sha := sha) (net := requests net tbl) hashes [] hsc (fun h hh => downloaded_get ht (hg h hh)) (by simpa using hnd')
  rw [hpaths, List.nil_append] at hcol
  simp only [ht, orRaise, bind, Except.bind]
  by_cases hem : tbl.isEmpty = true
  · rw [if_pos hem]
    have htbl : tbl = [] := by simpa using hem
    subst htbl
    have hemp : order (httpPaths []) = [] := (hord _).eq_nil
    rw [hemp] at hpaths
    have : hashes = [] := by simpa using hpaths
    subst this
    cases hset
    exact ⟨r, rfl, hr⟩
  · rw [if_neg hem, hcheck]
    simp only [hcol]
    exact ⟨r', h1, h2⟩

theorem hashesBumped_step {E : Env} {sha : Str → Str} {net : Network} {order : List Str → List Str} {o r : Recipe} {chs : List LineChange}
    {vars vars' : List (Str × PyVal)} {ds ds' : List Doc} (hord : ∀ l, (order l).Perm l)
    (h : HashesBumped E sha net order o chs vars ds vars' ds') (ho : Stored E sc vars ds o) (hnd : (vars.map (·.1)).Nodup) (hr : Stands sc vars ds r) :
    ∃ r', updateSha256 E sha net order r = .ok r' ∧ Stands sc vars' ds' r' := by
  cases h with
  | @byVariable tbl v s ch _ _ _ ht hv hg hset =>
    have hfil := stands_hashVars ho hr
    unfold updateSha256
    rw [stands_fetchers hr ho]
    replace hg := downloaded_get ht hg
    obtain ⟨h1, ⟨name, url, rfl⟩, h3⟩ := hv
    obtain ⟨_, h2⟩ := variableSet_step hset hnd hr
    refine ⟨_, ?_, h2⟩
    simp only [ht, orRaise, bind, Except.bind, checkHashVar, hfil, h1, List.isEmpty_cons, Bool.false_eq_true, if_false]
    rw [stands_references hr ho, if_pos (by simpa using h3), hg]
    simp only [orHttpExit]
  | byKeys ht hno hpaths hnd hcomp hg hset => exact hashesKeys_step hord ho hr ht hno hpaths hnd hcomp hg hset

theorem bumped_step {E : Env} {sha : Str → Str} {W : BumpWorld} {args : BumpArgs} {chs : List LineChange} {vars vars' : List (Str × PyVal)}
    {ds ds' : List Doc} {r : Recipe} (hord : ∀ l, (W.order l).Perm l) (h : Bumped E sha W args chs vars ds vars' ds')
    (hr : Stands .v0 vars ds r) : ∃ r', bumpEdits E sha W args r = .ok r' ∧ Stands .v0 vars' ds' r' := by
  unfold bumpEdits
  cases h with
  | number ht ho hb hn =>
    obtain ⟨r1, h1, h2⟩ := numberBumped_step hn hr (by rw [stands_value hr ho.stored]; exact hb)
    exact ⟨r1, by simp only [h1, bind, Except.bind, ht], h2⟩
  | version ht ho hb hn ho1 hp hv ho2 hh =>
    obtain ⟨r1, h1, h2⟩ := numberBumped_step hn hr (by rw [stands_value hr ho.stored]; exact hb)
    obtain ⟨r2, h3, h4⟩ := versionBumped_step hv ho1.definitions.distinct h2
    obtain ⟨r3, h5, h6⟩ := hashesBumped_step hord hh ho2.stored ho2.definitions.distinct h4
    refine ⟨r3, ?_, h6⟩
    have hp' := (stands_value h2 ho1.stored §"/package/version" (some .none) true).trans hp
    simp only [h1, bind, Except.bind, ht, hp', orRaise, h3, h5]

end Crm

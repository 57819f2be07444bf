import Verif.Props.BumpFields
import Verif.Lemmas.Update

/-!
# `bump-recipe`: the order in which the downloads finish (C47) and the hashes written (C69)
-/

namespace Crm
open Spec

namespace Spec

/-- Every source fetched over HTTP that the table addresses by number is an element `- key: …` of the list. -/
def numberedSources (r : Recipe) (paths : List Str) : Prop :=
  ∀ i, absPath [§"source", natStr i] ∈ paths →
    ∃ m, lookup r.root [§"source", natStr i] = some m ∧ m.isCollectionElement = true

/-- YAML reads the hash as a text, by itself (perhaps quoted) and behind `sha256:`. -/
structure PlainHash (E : Env) (t : Str) : Prop where
  newline : '\n' ∉ t
  notSchema : t ≠ §"schema_version"
  value : OneLine E (yamlText (.str t)) (.str t)
  line : ∃ text, E.dump (.dict [(§"sha256", .str t)]) = text ++ §"\n" ∧ OneLine E text (.dict [(§"sha256", .str t)])
  reads : E.load t = .ok (.str t)

end Spec

/-! ## What one edit does -/

theorem nodeAt_update_self (f : Node → Node) {p : Pos} {n m : Node} (h : nodeAt n p = some m) :
    nodeAt (updateAt f p n) p = some (f m) := by
  induction p generalizing n with
  | nil => simp only [nodeAt, Option.some.injEq] at h; subst h; rfl
  | cons i p ih =>
    simp only [nodeAt] at h ⊢
    split at h
    · cases h
    · rename_i c hc
      simp only [updateAt, List.getElem?_modify, hc]
      simpa using ih h

/-- A functional change of the children is an update. -/
theorem changed_eq {f : List Node → List Node → Prop} {g : List Node → List Node} (hf : ∀ a b, f a b → b = g a)
    {pos : Pos} {t t' : Node} (h : ChildrenChanged f pos t t') :
    t' = updateAt (fun n => { n with children := g n.children }) pos t := by
  induction h with
  | here n cs hc => rw [hf _ _ hc]; rfl
  | there n pre c c' post p hn hc ih =>
    simp only [updateAt, hn]
    congr 1
    subst ih
    apply List.ext_getElem?
    intro k
    simp only [List.getElem?_modify]
    rcases Nat.lt_trichotomy k pre.length with hk | hk | hk
    · rw [List.getElem?_append_left hk, List.getElem?_append_left hk]
      simp [show ¬ pre.length = k by omega]
    · subst hk; simp
    · rw [List.getElem?_append_right (by omega), List.getElem?_append_right (by omega)]
      obtain ⟨d, hd⟩ : ∃ d, k - pre.length = d + 1 := ⟨k - pre.length - 1, by omega⟩
      simp [hd, show ¬ pre.length = k by omega]

/-- The edit of one list element, given the node. -/
def shaElem (E : Env) (s : Str) (m : Node) : Option Node :=
  match childIdx m §"sha256" with
  | some j => match m.children[j]? with
    | none => none
    | some c =>
      if bareValue c then none
      else match newNodes E (.str s) with
        | .error _ => none
        | .ok new => some (updateAt (fun n => { n with children := new }) [j] m)
  | none =>
    if bareValue m then none
    else match newNodes E (.dict [(§"sha256", .str s)]) with
      | .error _ => none
      | .ok new => some { m with children := m.children ++ new }

theorem elem_comps (i : Nat) : ∀ c ∈ [§"source", natStr i, §"sha256"], Component c :=
  (shaComps (Or.inr ⟨i, rfl⟩ : sourceComps [§"source", natStr i])).1

/-- One round of the loop over the hashes. -/
def shaStep (E : Env) (path s : Str) (r : Recipe) : Except Stop Recipe := do
  let op := if ← orRaise (r.containsValue path) then §"replace" else §"add"
  exitOnFailedPatch E r (valuePatch op path (.str s))

theorem patchShas_cons (E : Env) (path s : Str) (rest : List (Str × Str)) (r : Recipe) :
    patchShas E ((path, s) :: rest) r = (shaStep E path s r).bind (patchShas E rest) := by
  simp only [patchShas, shaStep, bind, Except.bind]
  cases orRaise (r.containsValue path) <;> rfl

theorem shaStep_elem (E : Env) (s : Str) (i : Nat) (r r' : Recipe) (pos : Pos) (m : Node)
    (hl : locate r.root [§"source", natStr i] = some pos) (hm : nodeAt r.root pos = some m)
    (hcol : m.isCollectionElement = true) :
    shaStep E (absPath [§"source", natStr i, §"sha256"]) s r = .ok r' ↔
    ∃ m', shaElem E s m = some m' ∧ r' = edited r (updateAt (fun _ => m') pos r.root) := by
  have hc := elem_comps i
  have hcont : r.containsValue (absPath [§"source", natStr i, §"sha256"]) =
      .ok (lookup r.root [§"source", natStr i, §"sha256"]).isSome := C04_contains_iff_lookup r _ hc (by simp)
  have hdig : isDigitS §"sha256" = false := by decide
  have hloc : locate r.root ([§"source", natStr i] ++ [§"sha256"]) = (childIdx m §"sha256").map (fun j => pos ++ [j]) := by
    rw [locate_concat, hl]; simp [hm]
  unfold shaStep
  rw [hcont]
  simp only [orRaise, bind, Except.bind]
  rw [exitOnFailedPatch_ok]
  have hvl : ∀ op, field (valuePatch op (absPath [§"source", natStr i, §"sha256"]) (.str s)) §"value" = some (.str s) := by
    intro op; simp [field, valuePatch, lookupD]
  cases hj : childIdx m §"sha256" with
  | some j =>
    rw [hj] at hloc
    simp only [Option.map_some] at hloc
    obtain ⟨c, hcn⟩ : ∃ c, m.children[j]? = some c := ⟨_, List.getElem?_eq_getElem (childIdx_lt hj)⟩
    have hnode : nodeAt r.root (pos ++ [j]) = some c := by rw [nodeAt_append, hm]; simp [nodeAt, hcn]
    have hsome : (lookup r.root [§"source", natStr i, §"sha256"]).isSome = true := by
      have := locate_lookup r.root ([§"source", natStr i] ++ [§"sha256"])
      rw [hloc] at this
      simp only [Option.bind_some, hnode] at this
      rw [show [§"source", natStr i, §"sha256"] = [§"source", natStr i] ++ [§"sha256"] from rfl, ← this]; rfl
    rw [hsome, if_pos rfl]
    have hp : IsPatch (valuePatch §"replace" (absPath [§"source", natStr i, §"sha256"]) (.str s)) §"replace"
        (absPath [§"source", natStr i, §"sha256"]) := isPatch_mk _ _ _ (Or.inr rfl) (by simp [absPath]) (by simp)
    have := C12_replace E r _ (.str s) ([§"source", natStr i] ++ [§"sha256"]) (pos ++ [j]) c (by simp) hc hp (hvl _) hloc
      hnode (Or.inl (by rw [endsInNumber_concat]; exact hdig))
    simp only [shaElem, hj, hcn]
    by_cases hb : bareValue c = true
    · rw [if_pos hb] at this
      rw [this, if_pos hb]
      constructor
      · intro h; injection h with h; cases h
      · rintro ⟨_, h, _⟩; cases h
    · rw [if_neg hb] at this
      rw [if_neg hb]
      cases hg : newNodes E (.str s) with
      | error e =>
        rw [hg] at this
        simp only at this
        rw [this]
        constructor
        · intro h; injection h with h; cases h
        · rintro ⟨_, h, _⟩; cases h
      | ok new =>
        rw [hg] at this
        obtain ⟨root', he, hch⟩ := this
        have hroot := changed_eq (g := fun _ => new) (fun a b h => h) hch
        rw [updateAt_append, updateAt_const _ hm] at hroot
        rw [he, hroot]
        constructor
        · intro h; injection h with _ h
          exact ⟨_, rfl, h.symm⟩
        · rintro ⟨m', h, rfl⟩
          injection h with h; subst h; rfl
  | none =>
    rw [hj] at hloc
    simp only [Option.map_none] at hloc
    have hnone : (lookup r.root [§"source", natStr i, §"sha256"]).isSome = false := by
      have := locate_lookup r.root ([§"source", natStr i] ++ [§"sha256"])
      rw [hloc] at this
      rw [show [§"source", natStr i, §"sha256"] = [§"source", natStr i] ++ [§"sha256"] from rfl, ← this]; rfl
    rw [hnone, if_neg (by simp)]
    have hp : IsPatch (valuePatch §"add" (absPath [§"source", natStr i, §"sha256"]) (.str s)) §"add"
        (absPath [§"source", natStr i, §"sha256"]) := isPatch_mk _ _ _ (Or.inl rfl) (by simp [absPath]) (by simp)
    simp only [shaElem, hj]
    by_cases hb : bareValue m = true
    · exfalso
      have := collection_listMember hcol
      simp [bareValue, this] at hb
    · rw [if_neg hb]
      have := C10_new_key E r _ (.str s) [§"source", natStr i] §"sha256" pos m hc hp (hvl _) hdig (by decide) hloc hl hm
        (Or.inr hcol) (by simpa using hb)
      cases hg : newNodes E (.dict [(§"sha256", .str s)]) with
      | error e =>
        rw [hg] at this
        simp only at this
        rw [this]
        constructor
        · intro h; injection h with h; cases h
        · rintro ⟨_, h, _⟩; cases h
      | ok new =>
        rw [hg] at this
        obtain ⟨root', he, hch⟩ := this
        have hroot := changed_eq (g := fun a => a ++ new) (fun a b h => h) hch
        rw [updateAt_const _ hm] at hroot
        rw [he, hroot]
        constructor
        · intro h; injection h with _ h
          exact ⟨_, rfl, h.symm⟩
        · rintro ⟨m', h, rfl⟩
          injection h with h; subst h; rfl

/-! ## Edits of different elements -/

theorem shaElem_look {E : Env} {s : Str} {m m' : Node} (h : shaElem E s m = some m') (hcol : m.isCollectionElement = true) :
    m'.value = m.value ∧ m'.listMember = m.listMember ∧ m'.isCollectionElement = true ∧ m'.isComment = m.isComment ∧
    ∃ cs, m' = { m with children := cs } := by
  have hne : m.children ≠ [] := by
    intro h0; simp [Node.isCollectionElement, h0] at hcol
  unfold shaElem at h
  split at h
  · split at h
    · cases h
    · split at h
      · cases h
      · split at h
        · cases h
        · injection h with h; subst h
          have hlen : ∀ (j : Nat) (g : Node → Node), (m.children.modify j g).isEmpty = false := by
            intro j g
            rw [List.isEmpty_eq_false_iff]
            intro h0
            have := congrArg List.length h0
            simp only [List.length_modify, List.length_nil] at this
            exact hne (List.length_eq_zero_iff.1 this)
          have hem : m.children.isEmpty = false := by rw [List.isEmpty_eq_false_iff]; exact hne
          refine ⟨rfl, rfl, ?_, ?_, _, rfl⟩
          · simp only [updateAt, Node.isCollectionElement] at hcol ⊢
            simp_all [Node.isSentinel]
          · simp only [updateAt, Node.isComment, Node.isSentinel, hem]
            simp_all
  · split at h
    · cases h
    · split at h
      · cases h
      · injection h with h; subst h
        refine ⟨rfl, rfl, ?_, ?_, _, rfl⟩
        · simp only [Node.isCollectionElement] at hcol ⊢
          simp_all [Node.isSentinel]
        · cases hx : m.children with
          | nil => exact absurd hx hne
          | cons a as => simp [Node.isComment, hx]

theorem updateAt_comm (f g : Node → Node) : ∀ (p q : Pos) (n : Node), p.length = q.length → p ≠ q →
    updateAt f p (updateAt g q n) = updateAt g q (updateAt f p n)
  | [], [], _, _, h => absurd rfl h
  | [], _ :: _, _, h, _ => by cases h
  | _ :: _, [], _, h, _ => by cases h
  | i :: p, j :: q, n, hl, hne => by
    simp only [updateAt]
    congr 1
    apply List.ext_getElem?
    intro k
    simp only [List.getElem?_modify]
    by_cases hij : i = j
    · subst hij
      have hpq : p ≠ q := fun h => hne (by rw [h])
      have ih := fun n => updateAt_comm f g p q n (by simpa using hl) hpq
      by_cases hk : i = k
      · subst hk
        cases n.children[i]? <;> simp [ih]
      · simp [hk]
    · by_cases hk : i = k
      · subst hk
        have : ¬ j = i := fun h => hij h.symm
        simp [this]
      · simp [hk]

theorem childIdx_number_inj {n : Node} {i j p : Nat} (hi : childIdx n (natStr i) = some p)
    (hj : childIdx n (natStr j) = some p) : i = j := by
  have key : ∀ {i : Nat}, childIdx n (natStr i) = some p → (n.children.take p).countP real = i := by
    intro i h
    unfold childIdx at h
    rw [if_pos (isDigitS_natStr i)] at h
    have := List.find?_some h
    split at this
    · simp only [Bool.and_eq_true, decide_eq_true_eq, natOfStr_natStr] at this
      exact this.2
    · cases this
  exact (key hi).symm.trans (key hj)

theorem locate_sources {t : Node} {i j : Nat} {p q : Pos} (hi : locate t [§"source", natStr i] = some p)
    (hj : locate t [§"source", natStr j] = some q) (hne : i ≠ j) : p ≠ q := by
  rintro rfl
  apply hne
  simp only [locate] at hi hj
  cases h0 : childIdx t §"source" with
  | none => rw [h0] at hi; cases hi
  | some a =>
    rw [h0] at hi hj
    simp only at hi hj
    cases h1 : t.children[a]? with
    | none => rw [h1] at hi; cases hi
    | some c =>
      rw [h1] at hi hj
      simp only at hi hj
      cases h2 : childIdx c (natStr i) with
      | none => rw [h2] at hi; cases hi
      | some b =>
        cases h3 : childIdx c (natStr j) with
        | none => rw [h3] at hj; cases hj
        | some b' =>
          rw [h2] at hi; rw [h3] at hj
          simp only at hi hj
          cases h4 : c.children[b]? with
          | none => rw [h4] at hi; cases hi
          | some d =>
            cases h5 : c.children[b']? with
            | none => rw [h5] at hj; cases hj
            | some d' =>
              rw [h4] at hi; rw [h5] at hj
              simp only [Option.map_some, Option.some.injEq] at hi hj
              rw [← hi] at hj
              injection hj with _ hj
              injection hj with hj
              subst hj
              exact childIdx_number_inj h2 h3

/-- After the edit of one element the others are where and what they were. -/
theorem elem_elsewhere {t m m' : Node} {i j : Nat} {p q : Pos} {E : Env} {s : Str}
    (hi : locate t [§"source", natStr i] = some p) (hm : nodeAt t p = some m) (hcol : m.isCollectionElement = true)
    (he : shaElem E s m = some m') (hne : i ≠ j) (hj : locate t [§"source", natStr j] = some q) :
    locate (updateAt (fun _ => m') p t) [§"source", natStr j] = some q ∧
    nodeAt (updateAt (fun _ => m') p t) q = nodeAt t q := by
  obtain ⟨_, _, _, hcom, cs, hcs⟩ := shaElem_look he hcol
  have hch : ChildrenChanged (Becomes cs) p t (updateAt (fun _ => m') p t) := by
    have := childrenChanged_updateAt (fun _ => cs) (Becomes cs) hm rfl
    rw [updateAt_const _ hm] at this
    rw [hcs]; exact this
  have h := locate_changed hch (by
    intro a b ha hb
    rw [hm] at ha; injection ha with ha; subst ha
    rw [nodeAt_update_self _ hm] at hb; injection hb with hb; subst hb
    exact hcom) [§"source", natStr j] (by
    intro a ha hna hl
    have h1 := locate_length hl
    have h2 := locate_length hi
    obtain ⟨b, hb⟩ := ha
    have h3 := congrArg List.length hb
    simp only [List.length_append, List.length_cons, List.length_nil] at h2 h3
    have : b = [] := List.length_eq_zero_iff.1 (by omega)
    subst this
    simp at hb; exact hna hb)
  refine ⟨h.1.trans hj, h.2 q hj ?_⟩
  intro hpre
  have h1 := locate_length hi
  have h2 := locate_length hj
  exact locate_sources hi hj hne (hpre.eq_of_length (h2.trans h1.symm)).symm

/-- The element is an element after the edit of any element. -/
def IsElem (r : Recipe) (i : Nat) : Prop :=
  ∃ p m, locate r.root [§"source", natStr i] = some p ∧ nodeAt r.root p = some m ∧ m.isCollectionElement = true

theorem shaStep_isElem {E : Env} {s : Str} {i j : Nat} {r r' : Recipe} (hi : IsElem r i) (hj : IsElem r j)
    (h : shaStep E (absPath [§"source", natStr i, §"sha256"]) s r = .ok r') : IsElem r' j := by
  obtain ⟨p, m, hl, hm, hcol⟩ := hi
  obtain ⟨q, m2, hl2, hm2, hcol2⟩ := hj
  obtain ⟨m', he, rfl⟩ := (shaStep_elem E s i r r' p m hl hm hcol).1 h
  by_cases hne : i = j
  · subst hne
    obtain ⟨_, _, hcol', hcom, cs, hcs⟩ := shaElem_look he hcol
    have hch : ChildrenChanged (Becomes cs) p r.root (updateAt (fun _ => m') p r.root) := by
      have := childrenChanged_updateAt (fun _ => cs) (Becomes cs) hm rfl
      rw [updateAt_const _ hm] at this
      rw [hcs]; exact this
    refine ⟨p, m', locate_changed_self hch ?_ hl, nodeAt_update_self _ hm, hcol'⟩
    intro a b ha hb
    rw [hm] at ha; injection ha with ha; subst ha
    rw [nodeAt_update_self _ hm] at hb; injection hb with hb; subst hb
    exact hcom
  · obtain ⟨h1, h2⟩ := elem_elsewhere hl hm hcol he hne hl2
    exact ⟨q, m2, h1, h2.trans hm2, hcol2⟩

theorem shaStep_swap {E : Env} {s u : Str} {i j : Nat} {r r1 r2 : Recipe} (hi : IsElem r i) (hj : IsElem r j) (hne : i ≠ j)
    (h1 : shaStep E (absPath [§"source", natStr i, §"sha256"]) s r = .ok r1)
    (h2 : shaStep E (absPath [§"source", natStr j, §"sha256"]) u r1 = .ok r2) :
    ∃ r3, shaStep E (absPath [§"source", natStr j, §"sha256"]) u r = .ok r3 ∧
      shaStep E (absPath [§"source", natStr i, §"sha256"]) s r3 = .ok r2 := by
  obtain ⟨p, m, hl, hm, hcol⟩ := hi
  obtain ⟨q, n, hl2, hm2, hcol2⟩ := hj
  obtain ⟨m', he, rfl⟩ := (shaStep_elem E s i r r1 p m hl hm hcol).1 h1
  obtain ⟨g1, g2⟩ := elem_elsewhere hl hm hcol he hne hl2
  obtain ⟨n', he2, rfl⟩ := (shaStep_elem E u j _ r2 q n g1 (g2.trans hm2) hcol2).1 h2
  obtain ⟨k1, k2⟩ := elem_elsewhere hl2 hm2 hcol2 he2 (fun h => hne h.symm) hl
  refine ⟨_, (shaStep_elem E u j r _ q n hl2 hm2 hcol2).2 ⟨n', he2, rfl⟩, ?_⟩
  refine (shaStep_elem E s i _ _ p m k1 (k2.trans hm) hcol).2 ⟨m', he, ?_⟩
  show edited r _ = edited r _
  have hlen : p.length = q.length := (locate_length hl).trans (locate_length hl2).symm
  have := updateAt_comm (fun _ => m') (fun _ => n') p q r.root hlen (locate_sources hl hl2 hne)
  unfold edited
  rw [← this]

/-- The loop over the hashes of numbered sources. -/
theorem patchShas_perm {E : Env} {l l' : List (Nat × Str)} (hp : l.Perm l') :
    ∀ r : Recipe, (l.map (·.1)).Nodup → (∀ x ∈ l, IsElem r x.1) → ∀ r',
    patchShas E (l.map fun x => (absPath [§"source", natStr x.1, §"sha256"], x.2)) r = .ok r' →
    patchShas E (l'.map fun x => (absPath [§"source", natStr x.1, §"sha256"], x.2)) r = .ok r' := by
  induction hp with
  | nil => intro r _ _ r' h; exact h
  | cons x h ih =>
    intro r hnd hel r' hr
    simp only [List.map_cons, patchShas_cons] at hr ⊢
    obtain ⟨r1, h1, h2⟩ := bind_ok.1 hr
    refine bind_ok.2 ⟨r1, h1, ?_⟩
    exact ih r1 (List.nodup_cons.1 hnd).2 (fun y hy => shaStep_isElem (hel x (by simp)) (hel y (by simp [hy])) h1) r' h2
  | swap x y l =>
    intro r hnd hel r' hr
    simp only [List.map_cons, patchShas_cons] at hr ⊢
    obtain ⟨r1, h1, h2⟩ := bind_ok.1 hr
    rw [patchShas_cons] at h2
    obtain ⟨r2, h2, h3⟩ := bind_ok.1 h2
    have hne : y.1 ≠ x.1 := by
      simp only [List.map_cons, List.nodup_cons, List.mem_cons, not_or] at hnd
      exact hnd.1.1
    obtain ⟨r3, h4, h5⟩ := shaStep_swap (hel y (by simp)) (hel x (by simp)) hne h1 h2
    refine bind_ok.2 ⟨r3, h4, ?_⟩
    rw [patchShas_cons]
    exact bind_ok.2 ⟨r2, h5, h3⟩
  | trans h1 h2 ih1 ih2 =>
    intro r hnd hel r' hr
    exact ih2 r ((h1.map _).nodup_iff.1 hnd) (fun x hx => hel x (h1.mem_iff.2 hx)) r' (ih1 r hnd hel r' hr)

/-! ## The table of sources -/

theorem fetchersGo_single {schema : Schema} {name : Str} {ignore : Bool} {v : PyVal} {tbl : List (Str × Fetcher)}
    (h : fetchersGo schema name 1 false ignore 0 [v] [] = .ok tbl) : tbl = [] ∨ ∃ f, tbl = [(§"/source", f)] := by
  unfold fetchersGo at h
  simp only [bind, Except.bind] at h
  split at h
  · cases h
  · split at h
    · simp only [fetchersGo] at h
      injection h with h
      exact Or.inr ⟨_, h.symm⟩
    · split at h
      · simp only [fetchersGo] at h
        injection h with h
        exact Or.inl h.symm
      · cases h

theorem fetchersGo_list {schema : Schema} {name : Str} {count : Nat} {ignore : Bool} {l : List PyVal} {k : Nat}
    {acc tbl : List (Str × Fetcher)} (h : fetchersGo schema name count true ignore k l acc = .ok tbl)
    (hacc : (∀ kv ∈ acc, ∃ i, kv.1 = absPath [§"source", natStr i]) ∧ (acc.map (·.1)).Nodup) :
    (∀ kv ∈ tbl, ∃ i, kv.1 = absPath [§"source", natStr i]) ∧ (tbl.map (·.1)).Nodup := by
  induction l generalizing k acc with
  | nil => unfold fetchersGo at h; injection h with h; subst h; exact hacc
  | cons v l ih =>
    unfold fetchersGo at h
    simp only [bind, Except.bind] at h
    split at h
    · cases h
    · split at h
      · refine ih h ⟨?_, ?_⟩
        · intro kv hkv
          rcases mem_insertD hkv with rfl | hkv
          · exact ⟨k, by simp [absPath]⟩
          · exact hacc.1 kv hkv
        · exact nodup_insertD _ _ _ hacc.2
      · split at h
        · exact ih h hacc
        · cases h

theorem fetchers_shape {E : Env} {r : Recipe} {b : Bool} {tbl : List (Str × Fetcher)} (h : fetchersOf E r b = .ok tbl) :
    (httpPaths tbl).length ≤ 1 ∨
    ∃ is : List Nat, is.Nodup ∧ httpPaths tbl = is.map fun i => absPath [§"source", natStr i] := by
  have hsub : ∀ tbl : List (Str × Fetcher), (httpPaths tbl).Sublist (tbl.map (·.1)) := by
    intro tbl
    induction tbl with
    | nil => exact List.Sublist.slnil
    | cons kv tbl ih =>
      simp only [httpPaths, List.filterMap_cons, List.map_cons] at ih ⊢
      split
      · exact ih.cons _
      · rename_i x hx
        split at hx
        · injection hx with hx; subst hx; exact ih.cons_cons _
        · cases hx
  unfold fetchersOf at h
  simp only [bind, Except.bind] at h
  split at h
  · cases h
  · split at h
    · cases h
    · split at h
      · obtain ⟨h1, h2⟩ := fetchersGo_list h ⟨by simp, by simp⟩
        refine Or.inr ?_
        have hn := (hsub tbl).nodup h2
        have hm : ∀ p ∈ httpPaths tbl, ∃ i, p = absPath [§"source", natStr i] := by
          intro p hp
          have := (hsub tbl).subset hp
          rw [List.mem_map] at this
          obtain ⟨kv, hkv, rfl⟩ := this
          exact h1 kv hkv
        generalize httpPaths tbl = ps at hn hm
        clear h h1 h2
        induction ps with
        | nil => exact ⟨[], by simp, rfl⟩
        | cons p ps ih =>
          obtain ⟨hp, hn⟩ := List.nodup_cons.1 hn
          obtain ⟨is, hi, hps⟩ := ih hn (fun q hq => hm q (by simp [hq]))
          obtain ⟨i, rfl⟩ := hm p (by simp)
          refine ⟨i :: is, List.nodup_cons.2 ⟨?_, hi⟩, by rw [hps]; rfl⟩
          intro hmem
          exact hp (by rw [hps]; exact List.mem_map_of_mem hmem)
      · left
        rcases fetchersGo_single h with rfl | ⟨f, rfl⟩
        · simp [httpPaths]
        · exact Nat.le_trans (hsub _).length_le (by simp)

theorem natPath_inj {i j : Nat} (h : absPath [§"source", natStr i, §"sha256"] = absPath [§"source", natStr j, §"sha256"]) :
    i = j := by
  have h1 := strToStack_absPath _ (by simp) (elem_comps i)
  have h2 := strToStack_absPath _ (by simp) (elem_comps j)
  rw [h, h2] at h1
  injection h1 with h1
  simp only [List.cons.injEq, true_and, and_true] at h1
  exact natStr_injective h1.symm

/-- The downloads of numbered sources: all must succeed, and the table lists them in order. -/
theorem collectShas_numbered {sha : Str → Str} {net : Requests} {is : List Nat} (hnd : is.Nodup) {acc : List (Nat × Str)}
    (hacc : ∀ i ∈ is, i ∉ acc.map (·.1)) (tbl : List (Str × Str)) :
    collectShas sha net (is.map fun i => absPath [§"source", natStr i])
      (acc.map fun x => (absPath [§"source", natStr x.1, §"sha256"], x.2)) = .ok tbl ↔
    ∃ ss : List (Nat × Str), ss.map (·.1) = is ∧
      (∀ x ∈ ss, orHttpExit (getSha256 sha (net (absPath [§"source", natStr x.1]))).1 = .ok x.2) ∧
      tbl = (acc ++ ss).map fun x => (absPath [§"source", natStr x.1, §"sha256"], x.2) := by
  induction is generalizing acc with
  | nil =>
    simp only [List.map_nil, collectShas]
    constructor
    · intro h; injection h with h; subst h
      exact ⟨[], rfl, by simp, by simp⟩
    · rintro ⟨ss, h1, _, rfl⟩
      rw [List.map_eq_nil_iff] at h1; subst h1; simp
  | cons i is ih =>
    obtain ⟨hi, hnd'⟩ := List.nodup_cons.1 hnd
    simp only [List.map_cons, collectShas]
    have happ : Recipe.appendToPath (absPath [§"source", natStr i]) §"/sha256" =
        absPath [§"source", natStr i, §"sha256"] := appendSha (Or.inr ⟨i, rfl⟩)
    have hins : ∀ s, insertD (absPath [§"source", natStr i, §"sha256"]) s
        (acc.map fun x => (absPath [§"source", natStr x.1, §"sha256"], x.2)) =
        (acc ++ [(i, s)]).map fun x => (absPath [§"source", natStr x.1, §"sha256"], x.2) := by
      intro s
      have hna : i ∉ acc.map (·.1) := hacc i (by simp)
      clear ih hacc
      induction acc with
      | nil => rfl
      | cons a acc ih =>
        simp only [List.map_cons, List.mem_cons, not_or] at hna
        simp only [List.map_cons, List.cons_append, insertD]
        rw [if_neg (fun h => hna.1 (by first | exact natPath_inj h | exact (natPath_inj h).symm)), ih hna.2]
    constructor
    · intro h
      obtain ⟨s, hs, h⟩ := bind_ok.1 h
      rw [happ, hins] at h
      obtain ⟨ss, h1, h2, h3⟩ := (ih (acc := acc ++ [(i, s)]) hnd' (by
        intro j hj
        simp only [List.map_append, List.map_cons, List.map_nil, List.mem_append, List.mem_singleton, not_or]
        exact ⟨hacc j (by simp [hj]), fun h => hi (h ▸ hj)⟩)).1 h
      refine ⟨(i, s) :: ss, by simp [h1], ?_, by rw [h3]; simp⟩
      intro x hx
      rcases List.mem_cons.1 hx with rfl | hx
      · exact hs
      · exact h2 x hx
    · rintro ⟨ss, h1, h2, h3⟩
      cases ss with
      | nil => cases h1
      | cons x ss =>
        obtain ⟨j, s⟩ := x
        simp only [List.map_cons, List.cons.injEq] at h1
        obtain ⟨rfl, h1⟩ := h1
        have hs : orHttpExit (getSha256 sha (net (absPath [§"source", natStr j]))).1 = .ok s := h2 (j, s) (by simp)
        rw [hs]
        show collectShas sha net _ (insertD (Recipe.appendToPath _ _) s _) = _
        rw [happ, hins]
        refine (ih (acc := acc ++ [(j, s)]) hnd' ?_).2 ⟨ss, h1, fun x hx => h2 x (by simp [hx]), by rw [h3]; simp⟩
        intro k hk
        simp only [List.map_append, List.map_cons, List.map_nil, List.mem_append, List.mem_singleton, not_or]
        exact ⟨hacc k (by simp [hk]), fun h => hi (h ▸ hk)⟩

theorem perm_map_ex {α β : Type} (f : α → β) {l : List α} {m : List β} (h : (l.map f).Perm m) :
    ∃ l', l.Perm l' ∧ l'.map f = m := by
  generalize hl : l.map f = k at h
  induction h generalizing l with
  | nil => exact ⟨l, List.Perm.refl _, hl⟩
  | cons x h ih =>
    cases l with
    | nil => cases hl
    | cons a l =>
      simp only [List.map_cons, List.cons.injEq] at hl
      obtain ⟨rfl, hl⟩ := hl
      obtain ⟨l', h1, h2⟩ := ih hl
      exact ⟨a :: l', h1.cons a, by rw [List.map_cons, h2]⟩
  | swap x y k =>
    cases l with
    | nil => cases hl
    | cons a l =>
      cases l with
      | nil => simp at hl
      | cons b l =>
        simp only [List.map_cons, List.cons.injEq] at hl
        obtain ⟨rfl, rfl, rfl⟩ := hl
        exact ⟨b :: a :: l, List.Perm.swap b a l, rfl⟩
  | trans h1 h2 ih1 ih2 =>
    obtain ⟨l1, g1, rfl⟩ := ih1 hl
    obtain ⟨l2, g2, g3⟩ := ih2 rfl
    exact ⟨l2, g1.trans g2, g3⟩

theorem downloads_perm {E : Env} {sha : Str → Str} {net : Requests} {r r' : Recipe} {ps qs : List Str} {is : List Nat}
    (hnd : is.Nodup) (hps : ps = is.map fun i => absPath [§"source", natStr i]) (hpq : ps.Perm qs)
    (hel : ∀ i ∈ is, IsElem r i)
    (h : (collectShas sha net ps []).bind (patchShas E · r) = .ok r') :
    (collectShas sha net qs []).bind (patchShas E · r) = .ok r' := by
  subst hps
  obtain ⟨tbl, h1, h2⟩ := bind_ok.1 h
  obtain ⟨ss, h3, h4, rfl⟩ := (collectShas_numbered hnd (acc := []) (by simp) tbl).1 h1
  subst h3
  rw [List.map_map] at hpq
  obtain ⟨ss', h5, rfl⟩ := perm_map_ex _ hpq
  refine bind_ok.2 ⟨ss'.map fun x => (absPath [§"source", natStr x.1, §"sha256"], x.2), ?_, ?_⟩
  · have := (collectShas_numbered (sha := sha) (net := net) (is := ss'.map (·.1)) ((h5.map _).nodup_iff.1 hnd) (acc := [])
      (by simp) (ss'.map fun x => (absPath [§"source", natStr x.1, §"sha256"], x.2))).2
      ⟨ss', rfl, fun x hx => h4 x (h5.mem_iff.2 hx), by simp⟩
    rw [List.map_map] at this
    exact this
  · exact patchShas_perm h5 r hnd (fun x hx => hel x.1 (List.mem_map_of_mem hx)) r' (by simpa using h2)

/-! ## C47 -/

/-- C47: the hashes written do not depend on the order in which the downloads complete: a run of the update that succeeds
with one order succeeds with every other, with the same recipe.  Assumed: sources the YAML reader numbers are elements of
the list `source` in the recipe's tree.  Missing, because false: which of several failures
ends the run does depend on the order (`C47_failure_violation`, with `C47_failed_downloads` for what holds). -/
theorem C47_any_order_partial (E : Env) (sha : Str → Str) (net : Network) (order order' : List Str → List Str) (r r' : Recipe)
    (hord : ∀ l, (order l).Perm l) (hord' : ∀ l, (order' l).Perm l)
    (hsrc : ∀ tbl, fetchersOf E r true = .ok tbl → numberedSources r (httpPaths tbl))
    (h : updateSha256 E sha net order r = .ok r') : updateSha256 E sha net order' r = .ok r' := by
  unfold updateSha256 at h ⊢
  obtain ⟨tbl, ht, h⟩ := bind_ok.1 h
  refine bind_ok.2 ⟨tbl, ht, ?_⟩
  rw [orRaise_ok] at ht
  split at h
  · rename_i he; rw [if_pos he]; exact h
  · rename_i he; rw [if_neg he]
    obtain ⟨o, ho, h⟩ := bind_ok.1 h
    refine bind_ok.2 ⟨o, ho, ?_⟩
    cases o with
    | some r1 => exact h
    | none =>
      simp only at h ⊢
      rcases fetchers_shape ht with hlen | ⟨is, hnd, hps⟩
      · have : order (httpPaths tbl) = order' (httpPaths tbl) := by
          have h1 := hord (httpPaths tbl)
          have h2 := hord' (httpPaths tbl)
          match hx : httpPaths tbl, hlen with
          | [], _ => rw [hx] at h1 h2; rw [h1.eq_nil, h2.eq_nil]
          | [p], _ => rw [hx] at h1 h2; rw [h1.eq_singleton, h2.eq_singleton]
          | _ :: _ :: _, hlen => simp at hlen
        rw [← this]; exact h
      · obtain ⟨is1, hp1, he1⟩ := perm_map_ex (fun i => absPath [§"source", natStr i]) (l := is)
          (m := order (httpPaths tbl)) (by rw [← hps]; exact (hord _).symm)
        refine downloads_perm (is := is1) (hp1.nodup_iff.1 hnd) he1.symm ((hord _).trans (hord' _).symm) ?_ h
        intro i hi
        obtain ⟨m, hm, hcol⟩ := hsrc tbl ht i (by rw [hps]; exact List.mem_map_of_mem (hp1.mem_iff.2 hi))
        rw [← locate_lookup] at hm
        cases hl : locate r.root [§"source", natStr i] with
        | none => rw [hl] at hm; cases hm
        | some p => rw [hl] at hm; exact ⟨p, m, hl, hm, hcol⟩

/-- A recipe with two sources, and the two orders. -/
def exTwoSources : Str :=
  §"package:\n  name: p\n  version: 1.0.1\nsource:\n  - url: http://a\n    sha256: x\n  - url: http://b\nbuild:\n  number: 5\n"

example : let r := Toy.recipe (String.ofList exTwoSources)
    (lookup r.root [§"source", §"0"]).map (·.isCollectionElement) = some true ∧
    (lookup r.root [§"source", §"1"]).map (·.isCollectionElement) = some true := by decide +kernel

/-- A recipe whose sources are written as templates, which YAML reads as mappings once they are replaced. -/
def exTemplateSources : Str :=
  §"{% set a = \"url: http://a\" %}\n{% set b = \"url: http://b\" %}\nsource:\n  - {{ a }}\n  - {{ b }}\nbuild:\n  number: 5\n"

def exTwoDownloads : Network := fun p _ _ => if p = §"/source/0" then { exGood with chunks := [§"k"] } else exGood

/-- C47 is false for sources that are templates: there is no mapping in the recipe to which the hash belongs, so it becomes another
element of the list, which moves the elements behind it; the place of the second hash then depends on which download completes first. -/
theorem C47_template_source_violation :
    let r := Toy.recipe (String.ofList exTemplateSources)
    ((updateSha256 Toy.env id exTwoDownloads id r).toOption.map (·.render) = some
      §"{% set a = \"url: http://a\" %}\n{% set b = \"url: http://b\" %}\n\nsource:\n  - sha256: k\n  - sha256: abc\n  - {{ a }}\n  - {{ b }}\n\nbuild:\n  number: 5\n") ∧
    ((updateSha256 Toy.env id exTwoDownloads List.reverse r).toOption.map (·.render) = some
      §"{% set a = \"url: http://a\" %}\n{% set b = \"url: http://b\" %}\n\nsource:\n  - sha256: k\n  - {{ a }}\n  - sha256: abc\n  - {{ b }}\n\nbuild:\n  number: 5\n") := by
  decide +kernel

/-! ## C69 -/

theorem orHttpExit_ok {x : Except PyErr Str} {s : Str} : orHttpExit x = .ok s ↔ x = .ok s := by
  unfold orHttpExit
  split <;> simp

theorem shaStep_readback {E : Env} {s : Str} {comps : List Str} {r r' : Recipe} (hsc : sourceComps comps)
    (hpl : endsInNumber comps = false ∨ ∃ m, lookup r.root comps = some m ∧ m.isCollectionElement = true)
    (hkey : ∀ m, lookup r.root (comps ++ [§"sha256"]) = some m → m.key = true) (hplain : PlainHash E s)
    (h : shaStep E (absPath (comps ++ [§"sha256"])) s r = .ok r') :
    r'.getValue E (absPath (comps ++ [§"sha256"])) = .ok (.str s) := by
  unfold shaStep at h
  obtain ⟨b, hb, h⟩ := bind_ok.1 h
  rw [orRaise_ok] at hb
  have hc := (shaComps hsc).1
  have hcl := C04_contains_iff_lookup r _ hc (by simp)
  rw [hb] at hcl
  injection hcl with hcl
  obtain ⟨text, hdump, hentry⟩ := hplain.line
  have := setKey_readback (E := E) (v := .str s) (w := .str s) hc (by decide) (by decide) (by decide)
    (by rcases hsc with rfl | ⟨i, rfl⟩ <;> simp) hpl
    (by cases b
        · exact Or.inl rfl
        · exact Or.inr ⟨rfl, hcl.symm⟩) hkey rfl (by simp)
    (by intro t ht; injection ht with ht; subst ht; exact hplain.newline) hplain.value rfl (by simp) (by simp)
    (by simpa using hplain.notSchema) hdump hentry (exitOnFailedPatch_ok.1 h)
  have h3 : r'.getValue E (absPath (comps ++ [§"sha256"])) = parseYaml E s := this
  exact h3.trans (parseYaml_ok hplain.reads)

theorem patchShas_append (E : Env) (l1 l2 : List (Str × Str)) (r : Recipe) :
    patchShas E (l1 ++ l2) r = (patchShas E l1 r).bind (patchShas E l2) := by
  induction l1 generalizing r with
  | nil => rfl
  | cons x l1 ih =>
    obtain ⟨p, s⟩ := x
    rw [List.cons_append, patchShas_cons, patchShas_cons]
    cases shaStep E p s r with
    | error e => rfl
    | ok r1 => exact ih r1

/-- Edits of other elements leave an element as it is. -/
theorem patchShas_other {E : Env} {l : List (Nat × Str)} {r r' : Recipe} {i : Nat} (hi : i ∉ l.map (·.1)) (hel : IsElem r i)
    (hall : ∀ x ∈ l, IsElem r x.1)
    (h : patchShas E (l.map fun x => (absPath [§"source", natStr x.1, §"sha256"], x.2)) r = .ok r') :
    lookup r'.root [§"source", natStr i] = lookup r.root [§"source", natStr i] ∧ IsElem r' i := by
  induction l generalizing r with
  | nil => injection h with h; subst h; exact ⟨rfl, hel⟩
  | cons x l ih =>
    simp only [List.map_cons, patchShas_cons] at h
    obtain ⟨r1, h1, h2⟩ := bind_ok.1 h
    simp only [List.map_cons, List.mem_cons, not_or] at hi
    have hx := hall x (by simp)
    have hel1 := shaStep_isElem hx hel h1
    obtain ⟨h3, h4⟩ := ih hi.2 hel1 (fun y hy => shaStep_isElem hx (hall y (by simp [hy])) h1) h2
    refine ⟨h3.trans ?_, h4⟩
    obtain ⟨p, m, hl, hm, hcol⟩ := hx
    obtain ⟨q, n, hl2, hm2, hcol2⟩ := hel
    obtain ⟨m', he, rfl⟩ := (shaStep_elem E x.2 x.1 r r1 p m hl hm hcol).1 h1
    obtain ⟨g1, g2⟩ := elem_elsewhere hl hm hcol he (fun h => hi.1 h.symm) hl2
    rw [← locate_lookup, ← locate_lookup, hl2]
    show (locate (updateAt (fun _ => m') p r.root) _).bind _ = _
    rw [g1]
    exact g2

/-- C69: after the hashes have been updated, and unless this was done through a variable (`C69_variable`), every source fetched over HTTP
has as `sha256` the hash of what was downloaded for this very source, from the URL of this source.  Assumed: sources the YAML reader numbers are
elements of the list, an existing `sha256` is a key, and YAML reads the hash as a text.  Missing: hashes that look like
numbers (`C69_number_violation`). -/
theorem C69_own_hash_partial (E : Env) (sha : Str → Str) (net : Network) (order : List Str → List Str) (r r' : Recipe)
    (tbl : List (Str × Fetcher)) (p name url : Str)
    (hord : ∀ l, (order l).Perm l) (ht : fetchersOf E r true = .ok tbl) (hp : (p, .http name url) ∈ tbl)
    (hvar : ∀ v name url, [§"sha256", §"hash", §"hash_val", §"hash_value"].filter (fun v => decide (v ∈ r.listVariables)) = [v] →
      tbl = [(§"/source", .http name url)] → §"/source/sha256" ∉ r.getVariableReferences v)
    (hsrc : numberedSources r (httpPaths tbl))
    (hkey : ∀ comps m, (∀ c ∈ comps, Component c) → p ++ §"/sha256" = absPath comps → lookup r.root comps = some m → m.key = true)
    (h : updateSha256 E sha net order r = .ok r') :
    ∃ s, (getSha256 sha (net p url)).1 = .ok s ∧
      (PlainHash E s → r'.getValue E (p ++ §"/sha256") = .ok (.str s)) := by
  rw [← requests_mem (net := net) ht hp]
  replace hp := httpPaths_mem.2 ⟨name, url, hp⟩
  have hp0 := hp
  unfold updateSha256 at h
  obtain ⟨tbl', ht', h⟩ := bind_ok.1 h
  rw [orRaise_ok, ht] at ht'
  injection ht' with ht'; subst ht'
  have hne : tbl.isEmpty = false := by cases tbl <;> first | rfl | simp [httpPaths] at hp
  rw [hne] at h
  simp only [Bool.false_eq_true, if_false] at h
  have hcv : checkHashVar sha (requests net tbl) r tbl = .ok none := by
    have hf : commonHashVars.filter (r.listVariables.contains ·) =
        [§"sha256", §"hash", §"hash_val", §"hash_value"].filter (fun v => decide (v ∈ r.listVariables)) := by
      apply List.filter_congr
      intro x _
      simp
    unfold checkHashVar
    rw [hf]
    split
    · rename_i v path name url hv
      rw [if_neg]
      rintro ⟨rfl, hr⟩
      exact hvar v name url hv rfl (by simpa using hr)
    · rfl
  rw [hcv] at h
  simp only [bind, Except.bind] at h
  obtain ⟨comps, hsc, hpc⟩ := httpPaths_keys ht p hp
  have hpa : p ++ §"/sha256" = absPath (comps ++ [§"sha256"]) := by rw [hpc]; simp [absPath]
  rw [hpa] at hkey ⊢
  replace hkey := fun m => hkey (comps ++ [§"sha256"]) m (by
    rcases hsc with rfl | ⟨i, rfl⟩
    · decide
    · exact elem_comps i) rfl
  rcases fetchers_shape ht with hlen | ⟨is, hnd, hps⟩
  · have hone : httpPaths tbl = [p] := by
      match hx : httpPaths tbl, hlen with
      | [], _ => rw [hx] at hp; cases hp
      | [q], _ => rw [hx] at hp; simp at hp; rw [hp]
      | _ :: _ :: _, hlen => simp at hlen
    have ho : order (httpPaths tbl) = [p] := by
      have := hord (httpPaths tbl); rw [hone] at this ⊢; exact this.eq_singleton
    rw [ho] at h
    split at h
    · cases h
    · rename_i shas hs
      simp only [collectShas] at hs
      obtain ⟨s, hs1, hs⟩ := bind_ok.1 hs
      injection hs with hs; subst hs
      rw [orHttpExit_ok] at hs1
      refine ⟨s, hs1, fun hplain => ?_⟩
      rw [hpc, appendSha hsc] at h
      simp only [insertD, patchShas_cons] at h
      obtain ⟨r1, h1, h2⟩ := bind_ok.1 h
      injection h2 with h2; subst h2
      refine shaStep_readback hsc ?_ hkey hplain h1
      rcases hsc with rfl | ⟨i, rfl⟩
      · exact Or.inl (by decide)
      · exact Or.inr (hsrc i (hpc ▸ hp0))
  · have hel : ∀ i ∈ is, IsElem r i := by
      intro i hi
      obtain ⟨m, hm, hcol⟩ := hsrc i (by rw [hps]; exact List.mem_map_of_mem hi)
      rw [← locate_lookup] at hm
      cases hl : locate r.root [§"source", natStr i] with
      | none => rw [hl] at hm; cases hm
      | some p => rw [hl] at hm; exact ⟨p, m, hl, hm, hcol⟩
    rw [hps, List.mem_map] at hp
    obtain ⟨i, hi, hpi⟩ := hp
    obtain ⟨is1, hp1, he1⟩ := perm_map_ex (fun i => absPath [§"source", natStr i]) (l := is)
      (m := order (httpPaths tbl)) (by rw [← hps]; exact (hord _).symm)
    -- bring the download of `p` to the end
    have hperm : is1.Perm (is1.erase i ++ [i]) :=
      (List.perm_cons_erase (hp1.mem_iff.1 hi)).trans (List.perm_append_singleton i _).symm
    have h' := downloads_perm (E := E) (sha := sha) (net := requests net tbl) (r := r) (r' := r') (is := is1) (hp1.nodup_iff.1 hnd)
      he1.symm (qs := (is1.erase i ++ [i]).map fun i => absPath [§"source", natStr i]) (he1 ▸ hperm.map _)
      (fun j hj => hel j (hp1.mem_iff.2 hj)) h
    have hnd2 : (is1.erase i ++ [i]).Nodup := hperm.nodup_iff.1 (hp1.nodup_iff.1 hnd)
    obtain ⟨shas, h1, h2⟩ := bind_ok.1 h'
    obtain ⟨ss, h3, h4, rfl⟩ := (collectShas_numbered hnd2 (acc := []) (by simp) shas).1 h1
    obtain ⟨ss1, y, rfl⟩ : ∃ ss1 y, ss = ss1 ++ [y] := by
      rcases List.eq_nil_or_concat ss with rfl | ⟨a, b, hab⟩
      · simp at h3
      · exact ⟨a, b, by rw [hab, List.concat_eq_append]⟩
    simp only [List.map_append, List.map_cons, List.map_nil] at h3
    obtain ⟨h31, h32⟩ := List.append_inj' h3 (by simp)
    simp only [List.cons.injEq, and_true] at h32
    have hs := h4 y (by simp)
    rw [orHttpExit_ok, h32, hpi] at hs
    refine ⟨y.2, hs, fun hplain => ?_⟩
    simp only [List.nil_append, List.map_append, List.map_cons, List.map_nil, patchShas_append] at h2
    obtain ⟨r1, h5, h6⟩ := bind_ok.1 h2
    rw [patchShas_cons, h32] at h6
    obtain ⟨r2, h6', h7⟩ := bind_ok.1 h6
    injection h7 with h7; subst h7
    have hni : i ∉ ss1.map (·.1) := by
      rw [h31]
      intro hmem
      rw [List.nodup_append] at hnd2
      exact hnd2.2.2 i hmem i (by simp) rfl
    obtain ⟨h8, p', m', hl', hm', hcol'⟩ := patchShas_other hni (hel i hi)
      (fun x hx => hel x.1 (hp1.mem_iff.2 (List.mem_of_mem_erase (h31 ▸ List.mem_map_of_mem hx)))) h5
    have hce : comps = [§"source", natStr i] := by
      have : absPath comps = absPath [§"source", natStr i] := hpc.symm.trans hpi.symm
      have hc1 : ∀ c ∈ comps, Component c := fun c hc => (shaComps hsc).1 c (by simp [hc])
      have hc2 : ∀ c ∈ [§"source", natStr i], Component c := fun c hc => elem_comps i c (by simp at hc ⊢; rcases hc with h | h <;> simp [h])
      have e1 := strToStack_absPath comps (by rcases hsc with rfl | ⟨i, rfl⟩ <;> simp) hc1
      have e2 := strToStack_absPath [§"source", natStr i] (by simp) hc2
      rw [this, e2] at e1
      injection e1 with e1
      injection e1 with _ e1
      exact e1.symm
    subst hce
    refine shaStep_readback (Or.inr ⟨i, rfl⟩) (Or.inr ⟨m', ?_, hcol'⟩) ?_ hplain h6'
    · rw [← locate_lookup, hl']; exact hm'
    · intro m hm
      apply hkey m
      rw [lookup_append] at hm ⊢
      rw [← h8]; exact hm

example : let r := Toy.recipe (String.ofList exTwoSources)
    (fetchersOf Toy.env r true).toOption.map httpPaths = some [§"/source/0", §"/source/1"] ∧ r.listVariables = [] ∧
    (lookup r.root [§"source", §"0", §"sha256"]).map (·.key) = some true ∧
    lookup r.root [§"source", §"1", §"sha256"] = none := by decide +kernel
example : PlainHash Toy.env §"ab12" :=
  ⟨by decide, by decide, ⟨by decide, by decide, by decide, by decide, by decide, by decide, by decide +kernel⟩,
    ⟨§"sha256: ab12", by decide +kernel,
      ⟨by decide, by decide, by decide, by decide, by decide, by decide, by decide +kernel⟩⟩, by decide +kernel⟩

/-- C69, through a variable: with one source, one of the usual hash variables, and a `/source/sha256` that uses it, the
variable gets the hash of the download from the URL of the source. -/
theorem C69_variable (E : Env) (sha : Str → Str) (net : Network) (order : List Str → List Str) (r r' : Recipe)
    (v name url : Str)
    (ht : fetchersOf E r true = .ok [(§"/source", .http name url)])
    (hv : [§"sha256", §"hash", §"hash_val", §"hash_value"].filter (fun v => decide (v ∈ r.listVariables)) = [v])
    (href : §"/source/sha256" ∈ r.getVariableReferences v)
    (h : updateSha256 E sha net order r = .ok r') :
    ∃ s, (getSha256 sha (net §"/source" url)).1 = .ok s ∧ r'.getVariable v = .ok (.str s) ∧ r'.root = r.root := by
  unfold updateSha256 at h
  obtain ⟨tbl', ht', h⟩ := bind_ok.1 h
  rw [orRaise_ok, ht] at ht'
  injection ht' with ht'; subst ht'
  simp only [List.isEmpty_cons, Bool.false_eq_true, if_false] at h
  obtain ⟨o, ho, h⟩ := bind_ok.1 h
  have hf : commonHashVars.filter (r.listVariables.contains ·) = [v] := by
    rw [← hv]
    apply List.filter_congr
    intro x _
    simp
  unfold checkHashVar at ho
  rw [hf] at ho
  simp only at ho
  rw [if_pos (by simpa using href)] at ho
  obtain ⟨s, hs, ho⟩ := bind_ok.1 ho
  rw [orHttpExit_ok] at hs
  injection ho with ho; subst ho
  injection h with h; subst h
  rw [requests_mem (name := name) (url := url) ht (by simp)] at hs
  exact ⟨s, hs, by simp [Recipe.getVariable, Recipe.setVariable, lookupD_insertD], rfl⟩

example : (bumpRecipe Toy.env (fun _ => §"abc")
      (exBumpFile §"{% set sha256 = \"1\" %}\npackage:\n  version: 1.0.1\nsource:\n  url: http://a\n  sha256: {{ sha256 }}\nbuild:\n  number: 5\n")
      { target := some §"2.0.1" }).file =
    some §"{% set sha256 = \"abc\" %}\n\npackage:\n  version: 2.0.1\n\nsource:\n  url: http://a\n  sha256: {{ sha256 }}\n\nbuild:\n  number: 0\n" := by
  decide +kernel

/-- C69 is false for hashes that look like numbers: leading zeros are lost. -/
theorem C69_number_violation :
    (bumpRecipe Toy.env (fun _ => §"0012") exBumpWorld { target := some §"2.0.1" }).file =
    some §"package:\n  name: p\n  version: 2.0.1\n\nsource:\n  url: http://x\n  sha256: 12\n\nbuild:\n  number: 0\n" := by
  decide +kernel

end Crm

import Verif.Lemmas.SelTree

namespace Crm
open Spec

/-- A listing as text. -/
def itemsStr (x : List (Lab × SelValue)) : Str := x.flatMap fun i => ' ' :: (i.1.str ++ ' ' :: i.2.str)

theorem itemsStr_append (x y : List (Lab × SelValue)) : itemsStr (x ++ y) = itemsStr x ++ itemsStr y := by
  simp [itemsStr]

theorem leftLab_str (v : SelValue) : (leftLab v).str = §"L" := by
  unfold leftLab; split <;> rfl

mutual
theorem itemsStr_pre : (t : SelTree) → (lab : Lab) → itemsStr (t.pre lab) = ' ' :: (lab.str ++ ' ' :: t.str)
  | .node v l r, lab => by
    rw [pre_node, SelTree.str]
    have h1 := itemsStr_preO l (leftLab v)
    have h2 := itemsStr_preO r .r
    rw [leftLab_str] at h1
    rw [show itemsStr ((lab, v) :: (SelTree.preO (leftLab v) l ++ SelTree.preO .r r)) =
      (' ' :: (lab.str ++ ' ' :: v.str)) ++ itemsStr (SelTree.preO (leftLab v) l ++ SelTree.preO .r r) from by
        simp [itemsStr]]
    rw [itemsStr_append, h1, h2]
    simp [Lab.str]
theorem itemsStr_preO : (o : Option SelTree) → (lab : Lab) →
    itemsStr (SelTree.preO lab o) = SelTree.strO (' ' :: (lab.str ++ §" ")) o
  | none, lab => by rw [preO_none, SelTree.strO]; rfl
  | some t, lab => by
    rw [preO_some, SelTree.strO, itemsStr_pre t lab]; simp
end

/-- `n` labels appear exactly below `not`. -/
def labOk (prev : SelValue) : List (Lab × SelValue) → Prop
  | [] => True
  | (lab, v) :: r => (lab = .n → prev = .op .not) ∧ (lab = .l → prev ≠ .op .not) ∧ labOk v r

mutual
theorem pre_labOk : (t : SelTree) → (lab : Lab) → (prev : SelValue) → (rest : List (Lab × SelValue)) →
    (lab = .n → prev = .op .not) → (lab = .l → prev ≠ .op .not) → (∀ p, labOk p rest) → labOk prev (t.pre lab ++ rest)
  | .node v l r, lab, prev, rest, h1, h2, h3 => by
    rw [pre_node]
    refine ⟨h1, h2, ?_⟩
    show labOk v ((_ ++ _) ++ rest)
    rw [List.append_assoc]
    have hr : ∀ p, labOk p (SelTree.preO .r r ++ rest) := fun p => preO_labOk r .r p rest (by simp) (by simp) h3
    refine preO_labOk l (leftLab v) v _ ?_ ?_ hr
    · unfold leftLab; split
      · rename_i h; exact fun _ => h
      · simp
    · unfold leftLab; split
      · simp
      · rename_i h; exact fun _ => h
theorem preO_labOk : (o : Option SelTree) → (lab : Lab) → (prev : SelValue) → (rest : List (Lab × SelValue)) →
    (lab = .n → prev = .op .not) → (lab = .l → prev ≠ .op .not) → (∀ p, labOk p rest) →
    labOk prev (SelTree.preO lab o ++ rest)
  | none, lab, prev, rest, _, _, h3 => by rw [preO_none]; exact h3 prev
  | some t, lab, prev, rest, h1, h2, h3 => by rw [preO_some]; exact pre_labOk t lab prev rest h1 h2 h3
end

/-- Values that are determined by their text, which has no blanks. -/
def SelValue.Canonical (v : SelValue) : Prop := SelValue.ofStr v.str = v ∧ ' ' ∉ v.str

theorem lowerS_name_platform (p : Platform) : lowerS p.name = p.name := by cases p <;> decide
theorem lowerS_name_os (p : OS) : lowerS p.name = p.name := by cases p <;> decide
theorem lowerS_name_arch (p : Arch) : lowerS p.name = p.name := by cases p <;> decide
theorem lowerS_name_op (p : LogicOp) : lowerS p.name = p.name := by cases p <;> decide

theorem op_canonical (o : LogicOp) : (SelValue.op o).Canonical := ⟨op_ofStr _ o (lowerS_name_op o), by cases o <;> decide⟩

theorem ofStr_canonical (t : Str) (h : ∀ c ∈ t, isSpace c = false) : (SelValue.ofStr t).Canonical := by
  rcases ofStr_cases t with ⟨q, h1, h'⟩ | ⟨o, h1, h'⟩ | ⟨a, h1, h'⟩ | ⟨o, h1, h'⟩ | ⟨h1, h2, h3, h4, h'⟩
  · rw [h']; exact ⟨by cases q <;> decide, by cases q <;> decide⟩
  · rw [h']; exact ⟨by cases o <;> decide, by cases o <;> decide⟩
  · rw [h']; exact ⟨by cases a <;> decide, by cases a <;> decide⟩
  · rw [h']; exact op_canonical o
  · rw [h']
    refine ⟨h', fun hm => ?_⟩
    have := h ' ' hm
    exact absurd this (by decide)

theorem popNots_mem {P : SelValue → Prop} (hop : ∀ o, P (.op o)) (ops : List LogicOp) (post : List SelValue)
    (h : ∀ v ∈ post, P v) : ∀ v ∈ (popNots ops post).2, P v := by
  induction ops generalizing post with
  | nil => exact h
  | cons o ops ih =>
    cases o with
    | not =>
      simp only [popNots]
      apply ih
      intro v hv
      rcases List.mem_cons.1 hv with rfl | hv
      · exact hop _
      · exact h v hv
    | _ => exact h

theorem shunt_mem {P : SelValue → Prop} (hop : ∀ o, P (.op o)) (ts : List Str) (ops : List LogicOp)
    (post : List SelValue) (ht : ∀ t ∈ ts, P (SelValue.ofStr t)) (h : ∀ v ∈ post, P v) :
    ∀ v ∈ shunt ts ops post, P v := by
  induction ts generalizing ops post with
  | nil =>
    simp only [shunt]
    induction ops generalizing post with
    | nil => exact h
    | cons o os ih =>
      apply ih
      intro v hv
      rcases List.mem_cons.1 hv with rfl | hv
      · exact hop _
      · exact h v hv
  | cons t ts ih =>
    have hts : ∀ t ∈ ts, P (SelValue.ofStr t) := fun t h => ht t (by simp [h])
    have hpush : ∀ v ∈ SelValue.ofStr t :: post, P v := by
      intro v hv
      rcases List.mem_cons.1 hv with rfl | hv
      · exact ht t (by simp)
      · exact h v hv
    cases hv : SelValue.ofStr t with
    | op o =>
      cases o with
      | not => simp only [shunt, hv]; exact ih _ _ hts h
      | and => simp only [shunt, hv]; exact ih _ _ hts (popNots_mem hop ops post h)
      | or => simp only [shunt, hv]; exact ih _ _ hts (popNots_mem hop ops post h)
    | _ =>
      simp only [shunt, hv]
      rw [hv] at hpush
      exact ih _ _ hts hpush

theorem process_mem {P : SelValue → Prop} (fuel : Nat) (st : List SelValue) (h : ∀ v ∈ st, P v) :
    (∀ v ∈ (processPostfix fuel st).2, P v) ∧
    ∀ lab, ∀ i ∈ SelTree.preO lab (processPostfix fuel st).1, P i.2 := by
  induction fuel generalizing st with
  | zero => exact ⟨h, by simp [processPostfix, preO_none]⟩
  | succ fuel ih =>
    cases st with
    | nil => exact ⟨h, by simp [processPostfix, preO_none]⟩
    | cons cur st =>
      have hst : ∀ v ∈ st, P v := fun v hv => h v (by simp [hv])
      have hcur := h cur (by simp)
      have h1 := ih st hst
      have h2 := ih (processPostfix fuel st).2 h1.1
      cases cur with
      | op o =>
        have hb : ∀ o : LogicOp, o ≠ .not → P (.op o) →
            (∀ v ∈ (processPostfix (fuel + 1) (.op o :: st)).2, P v) ∧
            ∀ lab, ∀ i ∈ SelTree.preO lab (processPostfix (fuel + 1) (.op o :: st)).1, P i.2 := by
          intro o ho hcur
          have heq : processPostfix (fuel + 1) (.op o :: st) =
              (some (.node (.op o) (processPostfix fuel (processPostfix fuel st).2).1 (processPostfix fuel st).1),
                (processPostfix fuel (processPostfix fuel st).2).2) := by
            cases o with
            | not => exact absurd rfl ho
            | _ => rfl
          rw [heq]
          refine ⟨h2.1, ?_⟩
          intro lab i hi
          simp only [preO_some, pre_node, List.mem_cons, List.mem_append] at hi
          rcases hi with rfl | hi | hi
          · exact hcur
          · exact h2.2 _ i hi
          · exact h1.2 _ i hi
        cases o with
        | not =>
          refine ⟨h1.1, ?_⟩
          intro lab i hi
          have heq : processPostfix (fuel + 1) (.op .not :: st) =
              (some (.node (.op .not) (processPostfix fuel st).1 none), (processPostfix fuel st).2) := rfl
          rw [heq] at hi
          simp only [preO_some, pre_node, List.mem_cons, List.mem_append, preO_none, List.not_mem_nil, or_false] at hi
          rcases hi with rfl | hi
          · exact hcur
          · exact h1.2 _ i hi
        | and => exact hb _ (by simp) hcur
        | or => exact hb _ (by simp) hcur
      | _ =>
        refine ⟨hst, ?_⟩
        intro lab i hi
        simp only [processPostfix, preO_some, pre_node, List.mem_cons, preO_none, List.append_nil,
          List.not_mem_nil, or_false] at hi
        subst hi; exact hcur

theorem splitChar_itemsStr (x : List (Lab × SelValue)) (h : ∀ i ∈ x, ' ' ∉ i.2.str) (a : Str) (ha : ' ' ∉ a) :
    splitChar ' ' (a ++ itemsStr x) = a :: x.flatMap fun i => [i.1.str, i.2.str] := by
  induction x generalizing a with
  | nil => simp [itemsStr, splitChar_of_not_mem ' ' a ha]
  | cons i x ih =>
    have hlab : ' ' ∉ i.1.str := by cases i.1 <;> decide
    have hi := h i (by simp)
    have : itemsStr (i :: x) = ' ' :: (i.1.str ++ ' ' :: (i.2.str ++ itemsStr x)) := by simp [itemsStr]
    rw [this, splitChar_append_sep ' ' a ha, splitChar_append_sep ' ' _ hlab,
      ih (fun j hj => h j (by simp [hj])) _ hi]
    simp

theorem flat_injective (x y : List (Lab × SelValue)) (hx : ∀ i ∈ x, i.2.Canonical) (hy : ∀ i ∈ y, i.2.Canonical)
    (px py : SelValue) (hp : px = py) (ox : labOk px x) (oy : labOk py y)
    (h : (x.flatMap fun i => [i.1.str, i.2.str]) = y.flatMap fun i => [i.1.str, i.2.str]) : x = y := by
  induction x generalizing y px py with
  | nil =>
    cases y with
    | nil => rfl
    | cons j y => simp at h
  | cons i x ih =>
    cases y with
    | nil => simp at h
    | cons j y =>
      obtain ⟨li, vi⟩ := i
      obtain ⟨lj, vj⟩ := j
      simp only [List.flatMap_cons, List.cons_append, List.nil_append, List.cons.injEq] at h
      obtain ⟨h1, h2, h3⟩ := h
      have hv : vi = vj := by
        have e1 := (hx (li, vi) (by simp)).1
        have e2 := (hy (lj, vj) (by simp)).1
        simp only at e1 e2
        rw [← e1, ← e2, h2]
      subst hv
      subst hp
      have hl : li = lj := by
        obtain ⟨a1, a2, _⟩ := ox
        obtain ⟨b1, b2, _⟩ := oy
        cases li <;> cases lj <;> first | rfl | (exfalso; exact absurd h1 (by decide)) | skip
        · exact absurd (a1 rfl) (b2 rfl)
        · exact absurd (b1 rfl) (a2 rfl)
      subst hl
      rw [ih y (fun k hk => hx k (by simp [hk])) (fun k hk => hy k (by simp [hk])) vi vi rfl ox.2.2 oy.2.2 h3]

/-- What the parser builds. -/
theorem parse_shape (ts : List Str) (hts : ∀ t ∈ ts, ∀ c ∈ t, isSpace c = false) :
    parseSelectorTree ts = none ∨ ∃ t, parseSelectorTree ts = some t ∧ t.LD ∧ ∀ lab, ∀ i ∈ t.pre lab, i.2.Canonical := by
  unfold parseSelectorTree
  simp only
  have hm := shunt_mem (P := SelValue.Canonical) op_canonical ts [] [] (fun t ht => ofStr_canonical t (hts t ht)) (by simp)
  have hp := process_mem (P := SelValue.Canonical) (shunt ts [] []).length _ hm
  rcases process_ld (shunt ts [] []).length (shunt ts [] []) (Nat.le_refl _) with ⟨_, h⟩ | ⟨t, rest, h, _, hld, _⟩
  · left; rw [h]
  · right
    rw [h] at hp ⊢
    exact ⟨t, rfl, hld, fun lab i hi => hp.2 lab i (by rw [preO_some]; exact hi)⟩

/-- Trees with the same text are the same. -/
theorem tree_str_injective {t₁ t₂ : SelTree} (h₁ : t₁.LD) (h₂ : t₂.LD)
    (c₁ : ∀ lab, ∀ i ∈ t₁.pre lab, i.2.Canonical) (c₂ : ∀ lab, ∀ i ∈ t₂.pre lab, i.2.Canonical)
    (h : t₁.str = t₂.str) : t₁ = t₂ := by
  apply pre_injective h₁ h₂ .top
  have hs : itemsStr (t₁.pre .top) = itemsStr (t₂.pre .top) := by rw [itemsStr_pre, itemsStr_pre, h]
  have hw := congrArg (splitChar ' ') hs
  have e1 := splitChar_itemsStr (t₁.pre .top) (fun i hi => (c₁ .top i hi).2) [] (by simp)
  have e2 := splitChar_itemsStr (t₂.pre .top) (fun i hi => (c₂ .top i hi).2) [] (by simp)
  simp only [List.nil_append] at e1 e2
  rw [e1, e2] at hw
  simp only [List.cons.injEq, true_and] at hw
  have o1 := pre_labOk t₁ .top (.text []) [] (by simp) (by simp) (fun _ => trivial)
  have o2 := pre_labOk t₂ .top (.text []) [] (by simp) (by simp) (fun _ => trivial)
  simp only [List.append_nil] at o1 o2
  exact flat_injective _ _ (c₁ .top) (c₂ .top) _ _ rfl o1 o2 hw

/-! ## Letter case does not matter -/

/-- Forget the spelling of unknown words. -/
def SelValue.erase : SelValue → SelValue
  | .text _ => .text []
  | v => v

theorem erase_ofStr {a b : Str} (h : lowerS a = lowerS b) : (SelValue.ofStr a).erase = (SelValue.ofStr b).erase := by
  unfold SelValue.ofStr
  simp only [h]
  cases Platform.all.find? (fun p => p.name = lowerS b) with
  | some p => rfl
  | none =>
    cases OS.all.find? (fun p => p.name = lowerS b) with
    | some p => rfl
    | none =>
      cases Arch.all.find? (fun p => p.name = lowerS b) with
      | some p => rfl
      | none =>
        cases LogicOp.all.find? (fun p => p.name = lowerS b) with
        | some p => rfl
        | none => rfl

theorem popNots_erase (ops : List LogicOp) (p₁ p₂ : List SelValue) (h : p₁.map (·.erase) = p₂.map (·.erase)) :
    (popNots ops p₁).1 = (popNots ops p₂).1 ∧
    (popNots ops p₁).2.map (·.erase) = (popNots ops p₂).2.map (·.erase) := by
  induction ops generalizing p₁ p₂ with
  | nil => exact ⟨rfl, h⟩
  | cons o ops ih =>
    cases o with
    | not => exact ih _ _ (by simp [h])
    | _ => exact ⟨rfl, h⟩

theorem foldl_push_erase (ops : List LogicOp) (p₁ p₂ : List SelValue) (h : p₁.map (·.erase) = p₂.map (·.erase)) :
    (ops.foldl (fun post o => SelValue.op o :: post) p₁).map (·.erase) =
      (ops.foldl (fun post o => SelValue.op o :: post) p₂).map (·.erase) := by
  induction ops generalizing p₁ p₂ with
  | nil => exact h
  | cons o os ih => exact ih _ _ (by simp [h])

theorem shunt_erase (t₁ t₂ : List Str) (ht : t₁.map lowerS = t₂.map lowerS) (ops : List LogicOp)
    (p₁ p₂ : List SelValue) (h : p₁.map (·.erase) = p₂.map (·.erase)) :
    (shunt t₁ ops p₁).map (·.erase) = (shunt t₂ ops p₂).map (·.erase) := by
  induction t₁ generalizing t₂ ops p₁ p₂ with
  | nil =>
    have : t₂ = [] := by simpa using ht.symm
    subst this
    exact foldl_push_erase ops p₁ p₂ h
  | cons a as ih =>
    cases t₂ with
    | nil => simp at ht
    | cons b bs =>
      simp only [List.map_cons, List.cons.injEq] at ht
      have he := erase_ofStr ht.1
      have hpop := popNots_erase ops p₁ p₂ h
      cases ha : SelValue.ofStr a with
      | op o =>
        have hb : SelValue.ofStr b = .op o := by
          rw [ha] at he
          cases hb : SelValue.ofStr b <;> rw [hb] at he <;> simp only [SelValue.erase] at he <;> cases he
          rfl
        cases o with
        | not => simp only [shunt, ha, hb]; exact ih _ ht.2 _ _ _ h
        | and => simp only [shunt, ha, hb]; rw [hpop.1]; exact ih _ ht.2 _ _ _ hpop.2
        | or => simp only [shunt, ha, hb]; rw [hpop.1]; exact ih _ ht.2 _ _ _ hpop.2
      | _ =>
        rw [ha] at he
        cases hb : SelValue.ofStr b with
        | op o => rw [hb] at he; simp [SelValue.erase] at he
        | _ =>
          simp only [shunt, ha, hb]
          rw [hb] at he
          exact ih _ ht.2 _ _ _ (by simp only [List.map_cons, h, he])

theorem eval_leaf_erase (v w : SelValue) (hv : ∀ o, v ≠ .op o) (h : v.erase = w.erase) (p : Platform) :
    (SelTree.node v none none).eval p = (SelTree.node w none none).eval p := by
  cases v <;> cases w <;> simp only [SelValue.erase] at h <;> try cases h <;> rfl

theorem process_erase (fuel : Nat) (s₁ s₂ : List SelValue) (h : s₁.map (·.erase) = s₂.map (·.erase)) :
    (processPostfix fuel s₁).2.map (·.erase) = (processPostfix fuel s₂).2.map (·.erase) ∧
    ∀ p, SelTree.evalO (processPostfix fuel s₁).1 p = SelTree.evalO (processPostfix fuel s₂).1 p := by
  induction fuel generalizing s₁ s₂ with
  | zero => exact ⟨h, fun _ => rfl⟩
  | succ fuel ih =>
    cases s₁ with
    | nil =>
      have : s₂ = [] := by simpa using h.symm
      subst this
      exact ⟨rfl, fun _ => rfl⟩
    | cons a s₁ =>
      cases s₂ with
      | nil => simp at h
      | cons b s₂ =>
        simp only [List.map_cons, List.cons.injEq] at h
        have h1 := ih s₁ s₂ h.2
        have h2 := ih _ _ h1.1
        have hop : ∀ o, a = .op o → b = .op o := by
          rintro o rfl
          have := h.1
          cases b <;> simp only [SelValue.erase] at this <;> cases this
          rfl
        have hbin : ∀ (o : LogicOp) (st : List SelValue), o ≠ .not → processPostfix (fuel + 1) (.op o :: st) =
            (some (.node (.op o) (processPostfix fuel (processPostfix fuel st).2).1 (processPostfix fuel st).1),
              (processPostfix fuel (processPostfix fuel st).2).2) := by
          intro o st ho
          cases o with
          | not => exact absurd rfl ho
          | _ => rfl
        have hnot : ∀ st, processPostfix (fuel + 1) (.op .not :: st) =
            (some (.node (.op .not) (processPostfix fuel st).1 none), (processPostfix fuel st).2) := fun _ => rfl
        by_cases hc : ∃ o, a = .op o
        · obtain ⟨o, rfl⟩ := hc
          have := hop o rfl
          subst this
          cases o with
          | not =>
            rw [hnot, hnot]
            refine ⟨h1.1, fun p => ?_⟩
            rw [evalO_some, evalO_some, eval_not, eval_not, h1.2]
          | and =>
            rw [hbin _ _ (by simp), hbin _ _ (by simp)]
            refine ⟨h2.1, fun p => ?_⟩
            rw [evalO_some, evalO_some, eval_and, eval_and, h1.2, h2.2]
          | or =>
            rw [hbin _ _ (by simp), hbin _ _ (by simp)]
            refine ⟨h2.1, fun p => ?_⟩
            rw [evalO_some, evalO_some, eval_or, eval_or, h1.2, h2.2]
        · have ha : ∀ o, a ≠ .op o := fun o ho => hc ⟨o, ho⟩
          have hb : ∀ o, b ≠ .op o := by
            rintro o rfl
            have := h.1
            cases a <;> simp only [SelValue.erase] at this <;> cases this
            exact ha _ rfl
          have hleaf : ∀ (v : SelValue) (st : List SelValue), (∀ o, v ≠ .op o) →
              processPostfix (fuel + 1) (v :: st) = (some (.node v none none), st) := by
            intro v st hv
            cases v with
            | op o => exact absurd rfl (hv o)
            | _ => rfl
          rw [hleaf a _ ha, hleaf b _ hb]
          refine ⟨h.2, fun p => ?_⟩
          rw [evalO_some, evalO_some]
          exact eval_leaf_erase a b ha h.1 p

theorem parse_erase (t₁ t₂ : List Str) (ht : t₁.map lowerS = t₂.map lowerS) (p : Platform) :
    SelTree.evalO (parseSelectorTree t₁) p = SelTree.evalO (parseSelectorTree t₂) p := by
  unfold parseSelectorTree
  simp only
  have h := shunt_erase t₁ t₂ ht [] [] [] rfl
  have hl : (shunt t₁ [] []).length = (shunt t₂ [] []).length := by
    have := congrArg List.length h
    simpa using this
  rw [hl]
  exact (process_erase _ _ _ h).2 p

end Crm

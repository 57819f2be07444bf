import Verif.Lemmas.SelParse

namespace Crm
open Spec

theorem foldl_push (ops : List LogicOp) (post : List SelValue) :
    ops.foldl (fun post o => SelValue.op o :: post) post = ops.reverse.map .op ++ post := by
  induction ops generalizing post with
  | nil => rfl
  | cons o os ih => simp [ih]

theorem shunt_expr (rest : List (Bool × Lit)) (first : Lit) (ts : List Str) (ops : List LogicOp) (post : List SelValue)
    (h : ts.map lowerS = (Expr.mk first rest).tokens) (hp : (Expr.mk first rest).proper)
    (hops : ops.head? ≠ some .not) :
    ∃ (f : Nat × SelValue) (l : List (Bool × (Nat × SelValue))),
      shunt ts ops post = (ops.reverse ++ chainOps l).map .op ++ chainLits f l ++ post ∧
      (∀ x ∈ f :: l.map (·.2), ∀ o, x.2 ≠ .op o) ∧
      ∀ p, chainEval p f l = rightGo p.name first rest := by
  induction rest generalizing first ts ops post with
  | nil =>
    simp only [Expr.tokens, Lit.tokens, List.flatMap_nil, List.append_nil] at h
    obtain ⟨ns, t', rfl, hns, hm⟩ := List.map_eq_append_iff.1 h
    obtain ⟨t, _, rfl, ht, hnil⟩ := List.map_eq_cons_iff.1 hm
    have : ‹List Str› = [] := by simpa using hnil
    subst this
    have hw := hp first (by simp)
    refine ⟨(first.nots, SelValue.ofStr t), [], ?_, ?_, ?_⟩
    · rw [shunt_nots _ ns _ hns, shunt_leaf t (ht ▸ hw)]
      simp [shunt, chainOps, chainLits, litCode, -List.foldl_append]
    · intro x hx
      simp only [List.map_nil, List.mem_singleton] at hx
      subst hx
      exact leaf_not_op t (ht ▸ hw)
    · intro p
      simp only [chainEval, chainEval.lit, rightGo, Lit.holds]
      rw [leaf_eval t (ht ▸ hw), ht]
  | cons x rest ih =>
    obtain ⟨b, lit⟩ := x
    have htok : (Expr.mk first ((b, lit) :: rest)).tokens =
        List.replicate first.nots §"not" ++ first.word :: (if b then §"and" else §"or") ::
          (Expr.mk lit rest).tokens := by
      simp [Expr.tokens, Lit.tokens]
    rw [htok] at h
    obtain ⟨ns, t', rfl, hns, hm⟩ := List.map_eq_append_iff.1 h
    obtain ⟨t, ts', rfl, ht, hrest⟩ := List.map_eq_cons_iff.1 hm
    obtain ⟨b', ts, rfl, hb, hts⟩ := List.map_eq_cons_iff.1 hrest
    have hw := hp first (by simp)
    have hpr : (Expr.mk lit rest).proper := by
      intro y hy
      apply hp y
      simp only [List.map_cons, List.mem_cons] at hy ⊢
      exact Or.inr hy
    have hbin : lowerS b' = (if b then LogicOp.and else LogicOp.or).name := by
      rw [hb]; cases b <;> rfl
    obtain ⟨f, l, h1, h2, h3⟩ := ih lit ts ((if b then LogicOp.and else LogicOp.or) :: ops)
      (litCode first.nots (SelValue.ofStr t) ++ post) hts hpr (by cases b <;> simp)
    refine ⟨(first.nots, SelValue.ofStr t), (b, f) :: l, ?_, ?_, ?_⟩
    · rw [shunt_nots _ ns _ hns, shunt_leaf t (ht ▸ hw), shunt_bin b' _ (by cases b <;> simp) hbin,
        popNots_replicate _ _ _ hops]
      have hcode : List.replicate first.nots (SelValue.op LogicOp.not) ++ SelValue.ofStr t :: post =
          litCode first.nots (SelValue.ofStr t) ++ post := by simp [litCode]
      simp only [hcode]
      rw [h1, chainLits_cons]
      simp [chainOps]
    · intro y hy
      simp only [List.map_cons, List.mem_cons] at hy
      rcases hy with rfl | hy
      · exact leaf_not_op t (ht ▸ hw)
      · exact h2 y (by simpa using hy)
    · intro p
      have hl : chainEval.lit p (first.nots, SelValue.ofStr t) = first.holds p.name := by
        simp only [chainEval.lit, Lit.holds]
        rw [leaf_eval t (ht ▸ hw), ht]
      cases b <;> simp only [chainEval, rightGo, h3, hl]

theorem parse_expr (e : Expr) (ts : List Str) (h : ts.map lowerS = e.tokens) (hp : e.proper) (p : Platform) :
    SelTree.evalO (parseSelectorTree ts) p = e.rightHolds p.name := by
  obtain ⟨first, rest⟩ := e
  obtain ⟨f, l, h1, h2, h3⟩ := shunt_expr rest first ts [] [] h hp (by simp)
  unfold parseSelectorTree
  simp only [List.reverse_nil, List.nil_append, List.append_nil] at h1
  obtain ⟨t, ht1, ht2⟩ := process_chain f l h2 [] (shunt ts [] []).length (by rw [h1]; simp)
  simp only [List.append_nil] at ht1
  rw [← h1] at ht1
  simp only
  rw [ht1, evalO_some, ht2, h3]
  rfl

/-- When no `or` follows an `and`, reading to the right agrees with Python's precedence. -/
theorem right_eq_py (p : Str) (first : Lit) (rest : List (Bool × Lit))
    (h : rest.Pairwise fun a b => a.1 = true → b.1 = true) :
    rightGo p first rest = pyGo p (first.holds p) rest := by
  have hand : ∀ (rest : List (Bool × Lit)) (cur : Bool) (first : Lit), (∀ x ∈ rest, x.1 = true) →
      pyGo p (cur && first.holds p) rest = (cur && rightGo p first rest) := by
    intro rest
    induction rest with
    | nil => intros; rfl
    | cons x rest ih =>
      intro cur first hx
      obtain ⟨b, l⟩ := x
      have : b = true := hx (b, l) (by simp)
      subst this
      simp only [pyGo, rightGo]
      rw [ih _ _ (fun y hy => hx y (by simp [hy])), Bool.and_assoc]
  induction rest generalizing first with
  | nil => rfl
  | cons x rest ih =>
    obtain ⟨b, l⟩ := x
    rw [List.pairwise_cons] at h
    cases b with
    | false => simp only [rightGo, pyGo, ih l h.2]
    | true =>
      simp only [rightGo, pyGo]
      rw [hand rest _ _ (fun x hx => h.1 x hx rfl)]

end Crm

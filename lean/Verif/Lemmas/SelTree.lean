import Verif.Lemmas.SelParse

/-!
The debug string of a selector parse tree determines the tree, for the trees the parser builds.
-/

namespace Crm
open Spec

/-- A tree without missing operands. -/
inductive SelTree.Complete : SelTree → Prop
  | leaf {v} (hv : ∀ o, v ≠ .op o) : Complete (.node v none none)
  | not {l} : Complete l → Complete (.node (.op .not) (some l) none)
  | bin {o l r} (ho : o ≠ .not) : Complete l → Complete r → Complete (.node (.op o) (some l) (some r))

/-- A tree whose missing operands are all at its left end. -/
inductive SelTree.LD : SelTree → Prop
  | leaf {v} (hv : ∀ o, v ≠ .op o) : LD (.node v none none)
  | not0 : LD (.node (.op .not) none none)
  | not {l} : LD l → LD (.node (.op .not) (some l) none)
  | bin0 {o} (ho : o ≠ .not) : LD (.node (.op o) none none)
  | bin1 {o r} (ho : o ≠ .not) : LD r → LD (.node (.op o) none (some r))
  | bin {o l r} (ho : o ≠ .not) : LD l → Complete r → LD (.node (.op o) (some l) (some r))

theorem SelTree.Complete.ld {t : SelTree} (h : t.Complete) : t.LD := by
  induction h with
  | leaf hv => exact .leaf hv
  | not _ ih => exact .not ih
  | bin ho _ hr ih _ => exact .bin ho ih hr

theorem process_ld (fuel : Nat) (st : List SelValue) (hf : st.length ≤ fuel) :
    (st = [] ∧ processPostfix fuel st = (none, [])) ∨
    ∃ t rest, processPostfix fuel st = (some t, rest) ∧ rest.length < st.length ∧ t.LD ∧ (rest ≠ [] → t.Complete) := by
  induction fuel generalizing st with
  | zero =>
    have : st = [] := by simpa using hf
    subst this; exact Or.inl ⟨rfl, rfl⟩
  | succ fuel ih =>
    cases st with
    | nil => exact Or.inl ⟨rfl, rfl⟩
    | cons cur st =>
      right
      simp only [List.length_cons, Nat.add_le_add_iff_right] at hf
      have hnon : ∀ v : SelValue, (∀ o, v ≠ .op o) →
          ∃ t rest, processPostfix (fuel + 1) (v :: st) = (some t, rest) ∧ rest.length < (v :: st).length ∧ t.LD ∧
            (rest ≠ [] → t.Complete) := by
        intro v hv
        refine ⟨.node v none none, st, ?_, by simp, .leaf hv, fun _ => .leaf hv⟩
        cases v with
        | op o => exact absurd rfl (hv o)
        | _ => rfl
      have hbin : ∀ o : LogicOp, o ≠ .not →
          ∃ t rest, processPostfix (fuel + 1) (.op o :: st) = (some t, rest) ∧
            rest.length < (SelValue.op o :: st).length ∧ t.LD ∧ (rest ≠ [] → t.Complete) := by
        intro o ho
        have heq : processPostfix (fuel + 1) (.op o :: st) =
            (some (.node (.op o) (processPostfix fuel (processPostfix fuel st).2).1 (processPostfix fuel st).1),
              (processPostfix fuel (processPostfix fuel st).2).2) := by
          cases o with
          | not => exact absurd rfl ho
          | _ => rfl
        rw [heq]
        rcases ih st hf with ⟨rfl, h⟩ | ⟨r, rest, h, hlen, hld, hc⟩
        · refine ⟨_, _, rfl, ?_, ?_, ?_⟩
          · rw [h]
            simp only
            rcases ih [] (by simp) with ⟨_, h'⟩ | ⟨_, _, _, hl, _⟩
            · rw [h']; simp
            · simp at hl
          · rw [h]
            simp only
            rw [h]
            exact .bin0 ho
          · rw [h]
            simp only
            rw [h]
            simp
        · rw [h]
          simp only
          rcases ih rest (by omega) with ⟨rfl, h'⟩ | ⟨l, rest', h', hlen', hld', hc'⟩
          · rw [h']
            exact ⟨_, _, rfl, by simp, .bin1 ho hld, by simp⟩
          · rw [h']
            have hr : rest ≠ [] := by rintro rfl; simp at hlen'
            exact ⟨_, _, rfl, by simp; omega, .bin ho hld' (hc hr), fun hr' => .bin ho (hc' hr') (hc hr)⟩
      cases cur with
      | op o =>
        cases o with
        | not =>
          have heq : processPostfix (fuel + 1) (.op .not :: st) =
              (some (.node (.op .not) (processPostfix fuel st).1 none), (processPostfix fuel st).2) := rfl
          rw [heq]
          rcases ih st hf with ⟨rfl, h⟩ | ⟨r, rest, h, hlen, hld, hc⟩
          · rw [h]
            exact ⟨_, _, rfl, by simp, .not0, by simp⟩
          · rw [h]
            exact ⟨_, _, rfl, by simp; omega, .not hld, fun hr => .not (hc hr)⟩
        | and => exact hbin _ (by simp)
        | or => exact hbin _ (by simp)
      | platform p => exact hnon _ (by simp)
      | os p => exact hnon _ (by simp)
      | arch p => exact hnon _ (by simp)
      | text p => exact hnon _ (by simp)

/-! ## Pre-order listing with edge labels -/

/-- Edge labels: below `not`, left of a binary operator, right of one; `top` for the root. -/
inductive Lab where
  | top | n | l | r
deriving DecidableEq

/-- The label as printed. -/
def Lab.str : Lab → Str
  | .top => §"T" | .n => §"L" | .l => §"L" | .r => §"R"

/-- Label of the left child of a node holding `v`. -/
def leftLab (v : SelValue) : Lab := if v = .op .not then .n else .l

mutual
/-- Pre-order listing of a tree. -/
def SelTree.pre (lab : Lab) : SelTree → List (Lab × SelValue)
  | .node v l r => (lab, v) :: (SelTree.preO (leftLab v) l ++ SelTree.preO .r r)
/-- Pre-order listing of a possibly missing tree. -/
def SelTree.preO (lab : Lab) : Option SelTree → List (Lab × SelValue)
  | none => []
  | some t => t.pre lab
end

theorem pre_node (lab : Lab) (v : SelValue) (l r : Option SelTree) :
    (SelTree.node v l r).pre lab = (lab, v) :: (SelTree.preO (leftLab v) l ++ SelTree.preO .r r) := by
  rw [SelTree.pre]

theorem preO_none (lab : Lab) : SelTree.preO lab none = [] := by rw [SelTree.preO]

theorem preO_some (lab : Lab) (t : SelTree) : SelTree.preO lab (some t) = t.pre lab := by rw [SelTree.preO]

theorem pre_cons (lab : Lab) (t : SelTree) : ∃ v rest, t.pre lab = (lab, v) :: rest ∧ ∀ lab', t.pre lab' = (lab', v) :: rest := by
  obtain ⟨v, l, r⟩ := t
  exact ⟨v, _, pre_node _ _ _ _, fun _ => pre_node _ _ _ _⟩

/-- Weight of a label. -/
def Lab.weight : Lab → Int
  | .l => 1
  | .r => -1
  | _ => 0

/-- Weight of a listing. -/
def weight (x : List (Lab × SelValue)) : Int := (x.map (·.1.weight)).sum

theorem weight_append (x y : List (Lab × SelValue)) : weight (x ++ y) = weight x + weight y := by simp [weight]

theorem weight_cons (a : Lab × SelValue) (y : List (Lab × SelValue)) : weight (a :: y) = a.1.weight + weight y := by
  simp [weight]

theorem leftLab_bin {o : LogicOp} (ho : o ≠ .not) : leftLab (.op o) = .l := by simp [leftLab, ho]

theorem leftLab_not : leftLab (.op .not) = .n := by simp [leftLab]

/-- In a complete tree the labels balance. -/
theorem complete_weight {t : SelTree} (h : t.Complete) (lab : Lab) : weight (t.pre lab) = lab.weight := by
  induction h generalizing lab with
  | leaf hv => simp [pre_node, preO_none, weight]
  | not _ ih => simp [pre_node, preO_none, preO_some, weight_cons, leftLab_not, ih, Lab.weight]
  | bin ho _ _ ihl ihr =>
    simp [pre_node, preO_some, weight_cons, weight_append, leftLab_bin ho, ihl, ihr, Lab.weight]

/-- In a complete tree, whatever comes before an `R` edge below the root has positive weight. -/
theorem complete_before_r {t : SelTree} (h : t.Complete) : ∀ (lab : Lab) (v : SelValue) (x : List (Lab × SelValue))
    (w : SelValue) (y : List (Lab × SelValue)), t.pre lab = (lab, v) :: (x ++ (.r, w) :: y) → 1 ≤ weight x := by
  induction h with
  | leaf hv =>
    intro lab v x w y he
    simp [pre_node, preO_none] at he
  | @not l hl ih =>
    intro lab v x w y he
    simp only [pre_node, preO_none, preO_some, List.append_nil, leftLab_not, List.cons.injEq] at he
    obtain ⟨v', rest, h1, h2⟩ := pre_cons .n l
    have he2 := he.2
    rw [h1] at he2
    cases x with
    | nil => simp at he2
    | cons a x =>
      simp only [List.cons_append, List.cons.injEq] at he2
      have := ih .n v' x w y (by rw [h1, he2.2])
      rw [weight_cons, ← he2.1]
      simpa [Lab.weight] using this
  | @bin o l r ho hl hr ihl ihr =>
    intro lab v x w y he
    simp only [pre_node, preO_some, leftLab_bin ho, List.cons.injEq] at he
    have he2 := he.2
    have hwl := complete_weight hl .l
    obtain ⟨vl, restl, hl1, hl2⟩ := pre_cons .l l
    obtain ⟨vr, restr, hr1, hr2⟩ := pre_cons .r r
    rcases List.append_eq_append_iff.1 he2 with ⟨z, hz1, hz2⟩ | ⟨z, hz1, hz2⟩
    · -- at or after the right child
      rw [hz1, weight_append, hwl]
      rw [hr1] at hz2
      cases z with
      | nil => simp [weight, Lab.weight]
      | cons a z =>
        simp only [List.cons_append, List.cons.injEq] at hz2
        have := ihr .r vr z w y (by rw [hr1, hz2.2])
        rw [weight_cons, ← hz2.1]
        simp only [Lab.weight]
        omega
    · -- inside the left child
      cases z with
      | nil =>
        simp only [List.append_nil] at hz1
        rw [← hz1, hwl]; simp [Lab.weight]
      | cons a z =>
        simp only [List.cons_append, List.cons.injEq] at hz2
        cases x with
        | nil =>
          simp only [List.nil_append] at hz1
          rw [hl1] at hz1
          simp only [List.cons.injEq] at hz1
          rw [← hz2.1] at hz1
          simp at hz1
        | cons b x =>
          rw [hl1] at hz1
          simp only [List.cons_append, List.cons.injEq] at hz1
          have := ihl .l vl x w z (by rw [hl1, hz1.2, ← hz2.1])
          rw [weight_cons, ← hz1.1]
          simp only [Lab.weight]
          omega

theorem complete_after {t : SelTree} (h : t.LD) : ∀ (lab : Lab) (v : SelValue) (x y : List (Lab × SelValue)),
    t.pre lab = (lab, v) :: (x ++ y) → weight y ≤ 0 := by
  have hwhole : ∀ {t : SelTree} (lab : Lab), (∀ v x y, t.pre lab = (lab, v) :: (x ++ y) → weight y ≤ 0) →
      ∀ x y, t.pre lab = x ++ y → weight y ≤ max 0 lab.weight := by
    intro t lab h x y he
    obtain ⟨v, rest, h1, _⟩ := pre_cons lab t
    cases x with
    | nil =>
      simp only [List.nil_append] at he
      rw [← he, h1, weight_cons]
      have := h v [] rest (by rw [h1]; rfl)
      simp only
      omega
    | cons a x =>
      rw [h1] at he
      simp only [List.cons_append, List.cons.injEq] at he
      have := h v x y (by rw [h1, he.2])
      omega
  induction h with
  | leaf hv =>
    intro lab v x y he
    simp only [pre_node, preO_none, List.append_nil, List.cons.injEq] at he
    have : y = [] := by have := he.2; simp at this; exact this.2
    subst this; simp [weight]
  | not0 =>
    intro lab v x y he
    simp only [pre_node, preO_none, List.append_nil, List.cons.injEq] at he
    have : y = [] := by have := he.2; simp at this; exact this.2
    subst this; simp [weight]
  | bin0 ho =>
    intro lab v x y he
    simp only [pre_node, preO_none, List.append_nil, List.cons.injEq] at he
    have : y = [] := by have := he.2; simp at this; exact this.2
    subst this; simp [weight]
  | not hl ih =>
    intro lab v x y he
    simp only [pre_node, preO_none, preO_some, List.append_nil, leftLab_not, List.cons.injEq] at he
    have := hwhole .n (fun v x y h => ih .n v x y h) x y he.2
    simpa [Lab.weight] using this
  | bin1 ho hr ih =>
    intro lab v x y he
    simp only [pre_node, preO_none, preO_some, List.nil_append, List.cons.injEq] at he
    have := hwhole .r (fun v x y h => ih .r v x y h) x y he.2
    simp only [Lab.weight] at this
    omega
  | @bin o l r ho hl hr ih =>
    intro lab v x y he
    simp only [pre_node, preO_some, leftLab_bin ho, List.cons.injEq] at he
    have hwr := complete_weight hr .r
    rcases List.append_eq_append_iff.1 he.2 with ⟨z, hz1, hz2⟩ | ⟨z, hz1, hz2⟩
    · -- `y` is a suffix of the right child: what is cut off has weight at least -1
      obtain ⟨vr, restr, hr1, hr2⟩ := pre_cons .r r
      rw [hz2, weight_append] at hwr
      cases z with
      | nil =>
        simp [weight, Lab.weight] at hwr ⊢
        omega
      | cons a z =>
        rw [hr1] at hz2
        simp only [List.cons_append, List.cons.injEq] at hz2
        cases y with
        | nil => simp [weight]
        | cons b y =>
          -- generic suffix bound for complete trees
          have hsuf : ∀ {t : SelTree}, t.Complete → ∀ lab v x y, t.pre lab = (lab, v) :: (x ++ y) → weight y ≤ 0 := by
            intro t ht
            induction ht with
            | leaf hv =>
              intro lab v x y he
              simp only [pre_node, preO_none, List.append_nil, List.cons.injEq] at he
              have : y = [] := by have := he.2; simp at this; exact this.2
              subst this; simp [weight]
            | not hl ih =>
              intro lab v x y he
              simp only [pre_node, preO_none, preO_some, List.append_nil, leftLab_not, List.cons.injEq] at he
              have := hwhole .n (fun v x y h => ih .n v x y h) x y he.2
              simpa [Lab.weight] using this
            | @bin o l r ho hl hr ihl ihr =>
              intro lab v x y he
              simp only [pre_node, preO_some, leftLab_bin ho, List.cons.injEq] at he
              rcases List.append_eq_append_iff.1 he.2 with ⟨z, hz1, hz2⟩ | ⟨z, hz1, hz2⟩
              · have := hwhole .r (fun v x y h => ihr .r v x y h) z y hz2
                simp only [Lab.weight] at this
                omega
              · have := hwhole .l (fun v x y h => ihl .l v x y h) x z hz1
                rw [hz2, weight_append, complete_weight hr]
                simp only [Lab.weight] at this ⊢
                omega
          exact hsuf hr .r vr z (b :: y) (by rw [hr1, hz2.2])
    · rw [hz2, weight_append, hwr]
      have := hwhole .l (fun v x y h => ih .l v x y h) x z hz1
      simp only [Lab.weight] at this ⊢
      omega

/-- The labelled listing determines the tree. -/
theorem pre_injective {t₁ : SelTree} (h₁ : t₁.LD) : ∀ {t₂ : SelTree}, t₂.LD → ∀ lab, t₁.pre lab = t₂.pre lab → t₁ = t₂ := by
  have hlen : ∀ (t : SelTree) lab, 0 < (t.pre lab).length := by
    intro t lab
    obtain ⟨v, rest, h, _⟩ := pre_cons lab t
    simp [h]
  -- splitting a binary node's children
  have hsplit : ∀ {a b c d : SelTree}, a.LD → b.LD → c.Complete → d.Complete →
      ∀ x, b.pre .l = a.pre .l ++ x → c.pre .r = x ++ d.pre .r → x = [] := by
    intro a b c d ha hb hc hd x h1 h2
    cases x with
    | nil => rfl
    | cons i x =>
      exfalso
      obtain ⟨vc, restc, hc1, _⟩ := pre_cons .r c
      obtain ⟨vd, restd, hd1, _⟩ := pre_cons .r d
      obtain ⟨va, resta, ha1, _⟩ := pre_cons .l a
      rw [hc1, hd1] at h2
      simp only [List.cons_append, List.cons.injEq] at h2
      have hpos := complete_before_r hc .r vc x vd restd (by rw [hc1, h2.2])
      have hneg := complete_after hb .l va (resta ++ [i]) x (by rw [h1, ha1]; simp)
      omega
  have hcomplete : ∀ {c : SelTree}, c.Complete → ∀ {d : SelTree}, d.Complete → ∀ lab, c.pre lab = d.pre lab → c = d := by
    intro c hc
    induction hc with
    | @leaf v hv =>
      intro d hd lab he
      obtain ⟨v', l', r'⟩ := d
      simp only [pre_node, preO_none, List.append_nil, List.cons.injEq, Prod.mk.injEq, true_and] at he
      obtain ⟨rfl, he⟩ := he
      cases hd with
      | leaf => rfl
      | not => exact absurd rfl (hv _)
      | bin => exact absurd rfl (hv _)
    | @not l hl ih =>
      intro d hd lab he
      obtain ⟨v', l', r'⟩ := d
      simp only [pre_node, preO_none, preO_some, List.append_nil, List.cons.injEq, Prod.mk.injEq, true_and] at he
      obtain ⟨rfl, he⟩ := he
      cases hd with
      | leaf hv => exact absurd rfl (hv _)
      | not hl' =>
        simp only [preO_none, preO_some, List.append_nil] at he
        rw [ih hl' _ he]
      | bin ho => exact absurd rfl ho
    | @bin o l r ho hl hr ihl ihr =>
      intro d hd lab he
      obtain ⟨v', l', r'⟩ := d
      simp only [pre_node, preO_some, List.cons.injEq, Prod.mk.injEq, true_and] at he
      obtain ⟨rfl, he⟩ := he
      cases hd with
      | leaf hv => exact absurd rfl (hv _)
      | not => exact absurd rfl ho
      | bin ho' hl' hr' =>
        simp only [preO_some, leftLab_bin ho] at he
        rcases List.append_eq_append_iff.1 he with ⟨x, hx1, hx2⟩ | ⟨x, hx1, hx2⟩
        · have hx := hsplit hl.ld hl'.ld hr hr' x hx1 hx2
          subst hx
          simp only [List.append_nil, List.nil_append] at hx1 hx2
          rw [ihl hl' _ hx1.symm, ihr hr' _ hx2]
        · have hx := hsplit hl'.ld hl.ld hr' hr x hx1 hx2
          subst hx
          simp only [List.append_nil, List.nil_append] at hx1 hx2
          rw [ihl hl' _ hx1, ihr hr' _ hx2.symm]
  induction h₁ with
  | @leaf v hv =>
    intro d hd lab he
    obtain ⟨v', l', r'⟩ := d
    simp only [pre_node, preO_none, List.append_nil, List.cons.injEq, Prod.mk.injEq, true_and] at he
    obtain ⟨rfl, he⟩ := he
    cases hd with
    | leaf => rfl
    | _ => exact absurd rfl (hv _)
  | not0 =>
    intro d hd lab he
    obtain ⟨v', l', r'⟩ := d
    simp only [pre_node, preO_none, List.append_nil, List.cons.injEq, Prod.mk.injEq, true_and] at he
    obtain ⟨rfl, he⟩ := he
    cases hd with
    | leaf hv => exact absurd rfl (hv _)
    | not0 => rfl
    | @not l' hl' =>
      exfalso
      simp only [preO_some, preO_none, List.append_nil] at he
      have := hlen l' (leftLab (.op .not))
      rw [← he] at this; simp at this
    | bin0 ho => exact absurd rfl ho
    | bin1 ho => exact absurd rfl ho
    | bin ho => exact absurd rfl ho
  | @not l hl ih =>
    intro d hd lab he
    obtain ⟨v', l', r'⟩ := d
    simp only [pre_node, preO_none, preO_some, List.append_nil, List.cons.injEq, Prod.mk.injEq, true_and] at he
    obtain ⟨rfl, he⟩ := he
    cases hd with
    | leaf hv => exact absurd rfl (hv _)
    | not0 =>
      exfalso
      simp only [preO_none, List.append_nil] at he
      have := hlen l (leftLab (.op .not))
      rw [he] at this; simp at this
    | not hl' =>
      simp only [preO_none, preO_some, List.append_nil] at he
      rw [ih hl' _ he]
    | bin0 ho => exact absurd rfl ho
    | bin1 ho => exact absurd rfl ho
    | bin ho => exact absurd rfl ho
  | @bin0 o ho =>
    intro d hd lab he
    obtain ⟨v', l', r'⟩ := d
    simp only [pre_node, preO_none, List.append_nil, List.cons.injEq, Prod.mk.injEq, true_and] at he
    obtain ⟨rfl, he⟩ := he
    cases hd with
    | leaf hv => exact absurd rfl (hv _)
    | not0 => exact absurd rfl ho
    | not => exact absurd rfl ho
    | bin0 ho => rfl
    | @bin1 _ r' _ hr' =>
      exfalso
      simp only [preO_some, preO_none, List.nil_append] at he
      have := hlen r' .r
      rw [← he] at this; simp at this
    | @bin _ l' r' _ hl' hr' =>
      exfalso
      simp only [preO_some] at he
      have := hlen r' .r
      have h2 := congrArg List.length he
      simp at h2; omega
  | @bin1 o r ho hr ih =>
    intro d hd lab he
    obtain ⟨v', l', r'⟩ := d
    simp only [pre_node, preO_none, preO_some, List.nil_append, List.cons.injEq, Prod.mk.injEq, true_and] at he
    obtain ⟨rfl, he⟩ := he
    cases hd with
    | leaf hv => exact absurd rfl (hv _)
    | not0 => exact absurd rfl ho
    | not => exact absurd rfl ho
    | bin0 ho =>
      exfalso
      simp only [preO_none, List.append_nil] at he
      have := hlen r .r
      rw [he] at this; simp at this
    | bin1 _ hr' =>
      simp only [preO_none, preO_some, List.nil_append] at he
      rw [ih hr' _ he]
    | @bin _ l' r' _ hl' hr' =>
      exfalso
      simp only [preO_some, leftLab_bin ho] at he
      obtain ⟨v1, rest1, h1, _⟩ := pre_cons .r r
      obtain ⟨v2, rest2, h2, _⟩ := pre_cons .l l'
      rw [h1, h2] at he
      simp at he
  | @bin o l r ho hl hr ih =>
    intro d hd lab he
    obtain ⟨v', l', r'⟩ := d
    simp only [pre_node, preO_some, List.cons.injEq, Prod.mk.injEq, true_and] at he
    obtain ⟨rfl, he⟩ := he
    cases hd with
    | leaf hv => exact absurd rfl (hv _)
    | not0 => exact absurd rfl ho
    | not => exact absurd rfl ho
    | bin0 ho =>
      exfalso
      simp only [preO_none, List.append_nil] at he
      have := hlen r .r
      have h2 := (List.append_eq_nil_iff.1 he).2
      rw [h2] at this; simp at this
    | @bin1 _ r' _ hr' =>
      exfalso
      simp only [preO_some, preO_none, List.nil_append, leftLab_bin ho] at he
      obtain ⟨v1, rest1, h1, _⟩ := pre_cons .r r'
      obtain ⟨v2, rest2, h2, _⟩ := pre_cons .l l
      rw [h1, h2] at he
      simp at he
    | @bin _ l' r' _ hl' hr' =>
      simp only [preO_some, leftLab_bin ho] at he
      rcases List.append_eq_append_iff.1 he with ⟨x, hx1, hx2⟩ | ⟨x, hx1, hx2⟩
      · have hx := hsplit hl hl' hr hr' x hx1 hx2
        subst hx
        simp only [List.append_nil, List.nil_append] at hx1 hx2
        rw [ih hl' _ hx1.symm, hcomplete hr hr' _ hx2]
      · have hx := hsplit hl' hl hr' hr x hx1 hx2
        subst hx
        simp only [List.append_nil, List.nil_append] at hx1 hx2
        rw [ih hl' _ hx1, hcomplete hr hr' _ hx2.symm]

end Crm

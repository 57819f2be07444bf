import Verif.Lemmas.GetValue
import Verif.Model.Parser

/-! # Which exceptions the calls can raise -/

namespace Crm

/-- An exception only the loader (or nobody) raises. -/
structure Foreign (e : PyErr) : Prop where
  recur : e ≠ .recursionError
  idx : e ≠ .indexError
  key : e ≠ .keyError

theorem getValueIn_error {E : Env} {e : PyErr} (he : Foreign e) (hE : ∀ s, E.load s ≠ .error e) (root : Node)
    (path : Str) (d : Option PyVal) (ctx : Option JinjaCtx) : getValueIn E root path d ctx ≠ .error e := by
  have hfin : ∀ (n : Node) (v : PyVal), (match v with
      | .str s => do
        let parsed ← parseYaml E s ctx
        let isList := match parsed with | .list _ => true | _ => false
        let wrap := match n.children with | [c] => c.listMember | _ => false
        if !isList && wrap then .ok (.list [parsed]) else .ok parsed
      | v => .ok v : Except PyErr PyVal) ≠ .error e := by
    intro n v
    cases v with
    | str s =>
      simp only
      intro h
      cases hs : parseYaml E s ctx with
      | error e' => rw [hs] at h; injection h with h; subst h; exact parseYaml_error he.recur hE _ _ hs
      | ok w =>
        rw [hs] at h
        simp only [bind, Except.bind] at h
        exact ite_ok_ne_error h
    | _ => simp
  have hidx : e ≠ .indexError := he.idx
  have hkey : e ≠ .keyError := he.key
  unfold getValueIn
  cases hst : strToStack path with
  | error e' =>
    simp only [bind, Except.bind]
    intro h; injection h with h; subst h
    unfold strToStack at hst; split at hst
    · injection hst with hst; exact hidx hst.symm
    · cases hst
  | ok st =>
    simp only [bind, Except.bind]
    split
    · split
      · intro h; injection h with h; exact hkey h.symm
      · simp
    · rename_i n _
      split
      · split
        · intro h; injection h with h; exact hidx h.symm
        · split
          · split
            · exact renderJinjaVars_error hE _ _
            · exact hE _
            · simp
          · exact hfin n _
      · split
        · exact hfin n _
        · exact hfin n (.str (joinStr §"\n" (renderTree (-1) none n)))

theorem parseLineNode_error {E : Env} {e : PyErr} (he : Foreign e) (hE : ∀ s, E.load s ≠ .error e) (s : Str) :
    parseLineNode E s ≠ .error e := by
  have hidx : PyErr.indexError ≠ e := he.idx.symm
  unfold parseLineNode
  cases hp : parseYaml E s none with
  | error e' =>
    simp only [bind, Except.bind]
    intro h; injection h with h; subst h; exact parseYaml_error he.recur hE _ _ hp
  | ok v =>
    simp only [bind, Except.bind]
    split
    · simp
    · split <;> simp [hidx]

theorem takeMultiline_error {e : PyErr} (he : Foreign e) (i : Nat) (ls : List Str) : takeMultiline i ls ≠ .error e := by
  induction ls with
  | nil => intro h; simp only [takeMultiline] at h; injection h with h; exact he.idx h.symm
  | cons l ls ih =>
    simp only [takeMultiline]
    split
    · simp only [bind, Except.bind]
      cases ht : takeMultiline i ls with
      | error e' => intro h; injection h with h; subst h; exact ih ht
      | ok r => simp
    · simp

theorem popN_error {e : PyErr} (he : Foreign e) (n : Nat) (st : List Pos) : popN n st ≠ .error e := by
  induction n generalizing st with
  | zero => simp [popN]
  | succ n ih =>
    cases st with
    | nil => intro h; simp only [popN] at h; injection h with h; exact he.idx h.symm
    | cons p st => simp only [popN]; exact ih st

theorem attachLine_error {e : PyErr} (he : Foreign e) (b : Build) (i : Nat) (n : Node) : attachLine b i n ≠ .error e := by
  have hidx : PyErr.indexError ≠ e := he.idx.symm
  unfold attachLine
  simp only [bind, Except.bind]
  repeat' split
  all_goals first
    | (simp; done)
    | (intro h; injection h with h; exact hidx h)
    | (rename_i e' hp; intro h; injection h with h; subst h; exact popN_error he _ _ hp)

theorem buildLoop_error {E : Env} {e : PyErr} (he : Foreign e) (hE : ∀ s, E.load s ≠ .error e) (fuel : Nat)
    (ls : List Str) (b : Build) : buildLoop E fuel ls b ≠ .error e := by
  induction fuel generalizing ls b with
  | zero => simp [buildLoop]
  | succ fuel ih =>
    cases ls with
    | nil => simp [buildLoop]
    | cons l ls =>
      simp only [buildLoop]
      split
      · exact ih _ _
      · simp only [bind, Except.bind]
        cases hp : parseLineNode E (strip l) with
        | error e' => intro h; injection h with h; subst h; exact parseLineNode_error he hE _ hp
        | ok n =>
          simp only []
          split
          · cases ht : takeMultiline (numTabSpaces l) ls with
            | error e' => intro h; injection h with h; subst h; exact takeMultiline_error he _ _ ht
            | ok r =>
              simp only []
              split
              · rename_i e' ha
                intro h; injection h with h; subst h; exact attachLine_error he _ _ _ ha
              · exact ih _ _
          · cases ha : attachLine b (numTabSpaces l) n with
            | error e' => intro h; injection h with h; subst h; exact attachLine_error he _ _ _ ha
            | ok r => exact ih _ _

theorem parseTree_error {E : Env} {e : PyErr} (he : Foreign e) (hE : ∀ s, E.load s ≠ .error e) (s : Str) :
    parseTree E s ≠ .error e := by
  unfold parseTree
  simp only [bind, Except.bind]
  split
  · rename_i e' hb; intro h; injection h with h; subst h; exact buildLoop_error he hE _ _ _ hb
  · simp

theorem ofString_error {E : Env} {e : PyErr} (he : Foreign e) (hE : ∀ s, E.load s ≠ .error e) (s : Str) :
    Recipe.ofString E s ≠ .error e := by
  unfold Recipe.ofString
  simp only [bind, Except.bind]
  split
  · rename_i e' hb; intro h; injection h with h; subst h; exact parseTree_error he hE _ hb
  · split
    · rename_i e' hb; intro h; injection h with h; subst h; exact getValueIn_error he hE _ _ _ _ hb
    · split
      · simp
      · split
        · rename_i e' hb; intro h; injection h with h; subst h; exact getValueIn_error he hE _ _ _ _ hb
        · simp

theorem generateSubtree_error {E : Env} {e : PyErr} (he : Foreign e) (hE : ∀ s, E.load s ≠ .error e) (v : PyVal) :
    generateSubtree E v ≠ .error e := by
  have hm : ∀ s, (Recipe.ofString E s).map (·.root.children) ≠ .error e := by
    intro s h
    cases ho : Recipe.ofString E s with
    | error e' => rw [ho] at h; injection h with h; subst h; exact ofString_error he hE _ ho
    | ok r => rw [ho] at h; cases h
  unfold generateSubtree
  split
  · split
    · simp
    · exact hm _
  · split
    · exact hm _
    · exact hm _

theorem traverseWithIndex_error {e : PyErr} (he : Foreign e) (root : Node) (st : List Str) :
    traverseWithIndex root st ≠ .error e := by
  have hidx : PyErr.indexError ≠ e := he.idx.symm
  unfold traverseWithIndex
  split
  · simp
  · simp only []
    split
    · simp
    · split
      · simp
      · split
        · simp [hidx]
        · split
          · simp [hidx]
          · split <;> simp

theorem findTarget_error {e : PyErr} (he : Foreign e) (root : Node) (st : List Str) :
    patchAddFindTarget root st ≠ .error e := by
  unfold patchAddFindTarget
  split
  · simp
  · simp only [bind, Except.bind]
    split
    · rename_i e' ht; intro h; injection h with h; subst h; exact traverseWithIndex_error he _ _ ht
    · split
      · split
        · rename_i e' ht; intro h; injection h with h; subst h; exact traverseWithIndex_error he _ _ ht
        · simp
      · simp

theorem patchAdd_error {E : Env} {e : PyErr} (he : Foreign e) (hE : ∀ s, E.load s ≠ .error e) (root : Node)
    (st : List Str) (v : PyVal) : patchAdd E root st v ≠ .error e := by
  unfold patchAdd
  simp only [bind, Except.bind]
  split
  · rename_i e' ht; intro h; injection h with h; subst h; exact findTarget_error he _ _ ht
  · split
    · simp
    · split
      · simp
      · split
        · rename_i e' ht; intro h; injection h with h; subst h; exact generateSubtree_error he hE _ ht
        · split
          · simp
          · split <;> simp

theorem patchReplace_error {E : Env} {e : PyErr} (he : Foreign e) (hE : ∀ s, E.load s ≠ .error e) (root : Node)
    (st : List Str) (v : PyVal) : patchReplace E root st v ≠ .error e := by
  unfold patchReplace
  simp only [bind, Except.bind]
  split
  · rename_i e' ht; intro h; injection h with h; subst h; exact traverseWithIndex_error he _ _ ht
  · split
    · simp
    · split
      · simp
      · split
        · rename_i e' ht; intro h; injection h with h; subst h; exact generateSubtree_error he hE _ ht
        · split <;> simp

theorem strToStack_error {e : PyErr} (he : Foreign e) (p : Str) : strToStack p ≠ .error e := by
  unfold strToStack; split
  · intro h; injection h with h; exact he.idx h.symm
  · simp

theorem patchCopy_error {E : Env} {e : PyErr} (he : Foreign e) (hE : ∀ s, E.load s ≠ .error e) (root : Node)
    (st : List Str) (s : Str) : patchCopy E root st s ≠ .error e := by
  unfold patchCopy
  split
  · simp
  · rename_i e' _ ht; intro h; injection h with h; subst h; exact getValueIn_error he hE _ _ _ _ ht
  · exact patchAdd_error he hE _ _ _

theorem patchMove_error {E : Env} {e : PyErr} (he : Foreign e) (hE : ∀ s, E.load s ≠ .error e) (root : Node)
    (st : List Str) (s : Str) : (patchMove E root st s).1 ≠ .error e := by
  unfold patchMove
  split
  · simp
  · rename_i e' _ ht; intro h; injection h with h; subst h; exact getValueIn_error he hE _ _ _ _ ht
  · split
    · rename_i e' ht; intro h; injection h with h; subst h; exact findTarget_error he _ _ ht
    · split
      · simp
      · split
        · rename_i e' ht; intro h; injection h with h; subst h; exact strToStack_error he _ ht
        · split
          · simp
          · split
            · rename_i e' ht; intro h; injection h with h; subst h; exact patchAdd_error he hE _ _ _ ht
            · simp
            · simp

theorem patchTest_error {E : Env} {e : PyErr} (he : Foreign e) (hE : ∀ s, E.load s ≠ .error e) (root : Node)
    (p : Str) (v : PyVal) : patchTest E root p v ≠ .error e := by
  unfold patchTest
  split
  · simp
  · simp
  · rename_i e' _ ht; intro h; injection h with h; subst h; exact getValueIn_error he hE _ _ _ _ ht

theorem callPatchOp_error {E : Env} {e : PyErr} (he : Foreign e) (hE : ∀ s, E.load s ≠ .error e) (root : Node)
    (op path : Str) (d : List (Str × PyVal)) : (callPatchOp E root op path d).1 ≠ .error e := by
  have hof : ∀ x : Except PyErr (Option Node), x ≠ .error e →
      (opOutcome root x).1 ≠ .error e := by
    intro x hx
    unfold opOutcome
    split
    · rename_i e'; intro h; injection h with h; subst h; exact hx rfl
    · simp
    · simp
  unfold callPatchOp
  split
  · rename_i e' ht; intro h; injection h with h; subst h; exact strToStack_error he _ ht
  · split
    · exact hof _ (by simp)
    · split
      · intro h; injection h with h; exact he.key h.symm
      · split
        · exact hof _ (patchAdd_error he hE _ _ _)
        · split
          · exact hof _ (patchReplace_error he hE _ _ _)
          · split
            · exact patchMove_error he hE _ _ _
            · split
              · exact hof _ (patchCopy_error he hE _ _ _)
              · split
                · exact patchTest_error he hE _ _ _
                · simp

end Crm

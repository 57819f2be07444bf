import Verif.Spec.Selector
import Verif.Lemmas.Str

namespace Crm
open Spec

/-! ## Words -/

theorem words_cons_space {c : Char} {s : Str} {ts : List Str} (hc : isSpace c = true) (h : Words s ts) :
    Words (c :: s) ts := by
  cases h with
  | nil _ h => exact Words.nil _ (by
      intro d hd
      rcases List.mem_cons.1 hd with rfl | hd
      · exact hc
      · exact h d hd)
  | cons ws w rest ts h1 h2 h3 h4 h5 =>
    exact Words.cons (c :: ws) w rest ts (by
      intro d hd
      rcases List.mem_cons.1 hd with rfl | hd
      · exact hc
      · exact h1 d hd) h2 h3 h4 h5

theorem splitWsGo_words (s acc : Str) (ha : ∀ c ∈ acc, isSpace c = false) :
    (acc = [] → Words s (splitWsGo acc s)) ∧
    (acc ≠ [] → ∃ w rest ts, s = w ++ rest ∧ (∀ c ∈ w, isSpace c = false) ∧
      (rest = [] ∨ ∃ c cs, rest = c :: cs ∧ isSpace c = true) ∧
      Words rest ts ∧ splitWsGo acc s = (acc.reverse ++ w) :: ts) := by
  induction s generalizing acc with
  | nil =>
    constructor
    · rintro rfl; exact Words.nil _ (by simp)
    · intro h
      refine ⟨[], [], [], rfl, by simp, Or.inl rfl, Words.nil _ (by simp), ?_⟩
      cases acc with
      | nil => exact absurd rfl h
      | cons a as => simp [splitWsGo]
  | cons c cs ih =>
    by_cases hc : isSpace c = true
    · have ih0 := (ih [] (by simp)).1 rfl
      constructor
      · rintro rfl
        simp only [splitWsGo, hc, if_true, List.isEmpty_nil]
        exact words_cons_space hc ih0
      · intro h
        refine ⟨[], c :: cs, splitWsGo [] cs, rfl, by simp, Or.inr ⟨c, cs, rfl, hc⟩, ?_, ?_⟩
        · exact words_cons_space hc ih0
        · cases acc with
          | nil => exact absurd rfl h
          | cons a as => simp [splitWsGo, hc]
    · have hc' : isSpace c = false := by simpa using hc
      have ih1 := (ih (c :: acc) (by
        intro d hd
        rcases List.mem_cons.1 hd with rfl | hd
        · exact hc'
        · exact ha d hd)).2 (by simp)
      obtain ⟨w, rest, ts, h1, h2, h3, h4, h5⟩ := ih1
      have hw : ∀ d ∈ c :: w, isSpace d = false := by
        intro d hd
        rcases List.mem_cons.1 hd with rfl | hd
        · exact hc'
        · exact h2 d hd
      constructor
      · rintro rfl
        simp only [splitWsGo, hc', Bool.false_eq_true, if_false]
        rw [h5, h1]
        have := Words.cons [] (c :: w) rest ts (by simp) (by simp) hw h3 h4
        simpa using this
      · intro _
        refine ⟨c :: w, rest, ts, by simp [h1], hw, h3, h4, ?_⟩
        simp only [splitWsGo, hc', Bool.false_eq_true, if_false]
        rw [h5]; simp

theorem splitWs_words (s : Str) : Words s (splitWs s) := (splitWsGo_words s [] (by simp)).1 rfl

theorem splitWsGo_space (acc s : Str) (h : ∀ c ∈ s, isSpace c = true) (t : Str) (ht : acc = []) :
    splitWsGo acc (s ++ t) = splitWsGo [] t := by
  subst ht
  induction s with
  | nil => rfl
  | cons c cs ih =>
    have hc := h c (by simp)
    simp only [List.cons_append, splitWsGo, hc, if_true, List.isEmpty_nil]
    exact ih (fun d hd => h d (by simp [hd]))

theorem splitWsGo_word (w : Str) (h : ∀ c ∈ w, isSpace c = false) (acc t : Str) :
    splitWsGo acc (w ++ t) = splitWsGo (w.reverse ++ acc) t := by
  induction w generalizing acc with
  | nil => rfl
  | cons c cs ih =>
    have hc := h c (by simp)
    simp only [List.cons_append, splitWsGo, hc, Bool.false_eq_true, if_false]
    rw [ih (fun d hd => h d (by simp [hd]))]
    simp

theorem splitWsGo_flush (acc rest : Str) (h : acc ≠ []) (hr : rest = [] ∨ ∃ c cs, rest = c :: cs ∧ isSpace c = true) :
    splitWsGo acc rest = acc.reverse :: splitWs rest := by
  cases acc with
  | nil => exact absurd rfl h
  | cons a as =>
    rcases hr with rfl | ⟨c, cs, rfl, hc⟩
    · simp [splitWsGo, splitWs]
    · simp [splitWsGo, splitWs, hc]

theorem splitWs_of_words {s : Str} {ts : List Str} (h : Words s ts) : splitWs s = ts := by
  induction h with
  | nil s h => simpa [splitWs, splitWsGo] using splitWsGo_space [] s h [] rfl
  | cons ws w rest ts h1 h2 h3 h4 _ ih =>
    unfold splitWs at *
    rw [List.append_assoc, splitWsGo_space [] ws h1 _ rfl, splitWsGo_word w h3]
    rw [splitWsGo_flush _ _ (by simpa using h2) h4]
    simp [splitWs, ih]

theorem splitWs_iff (s : Str) (ts : List Str) : splitWs s = ts ↔ Words s ts :=
  ⟨fun h => h ▸ splitWs_words s, splitWs_of_words⟩

theorem splitWs_no_space (s : Str) : ∀ w ∈ splitWs s, w ≠ [] ∧ ∀ c ∈ w, isSpace c = false := by
  have := splitWs_words s
  generalize splitWs s = ts at this
  induction this with
  | nil => simp
  | cons ws w rest ts h1 h2 h3 h4 _ ih =>
    intro v hv
    rcases List.mem_cons.1 hv with rfl | hv
    · exact ⟨h2, h3⟩
    · exact ih v hv

theorem words_lstrip {s : Str} {ts : List Str} (h : Words s ts) : Words (lstrip s) ts := by
  cases h with
  | nil _ h => exact Words.nil _ (fun c hc => h c ((List.dropWhile_sublist _).subset hc))
  | cons ws w rest ts h1 h2 h3 h4 h5 =>
    have : lstrip (ws ++ w ++ rest) = [] ++ w ++ rest := by
      unfold lstrip
      rw [List.append_assoc, dropWhile_all h1]
      cases w with
      | nil => exact absurd rfl h2
      | cons c cs => exact dropWhile_head (h3 c (by simp))
    rw [this]
    exact Words.cons [] w rest ts (by simp) h2 h3 h4 h5

theorem words_append_space {s t : Str} {ts : List Str} (h : Words (s ++ t) ts) (ht : ∀ c ∈ t, isSpace c = true) :
    Words s ts := by
  generalize hs : s ++ t = u at h
  induction h generalizing s with
  | nil u h => exact Words.nil _ (fun c hc => h c (hs ▸ List.mem_append_left _ hc))
  | cons ws w rest ts h1 h2 h3 h4 h5 ih =>
    -- `t` cannot reach into `w`
    have hlen : t.length ≤ rest.length := by
      rcases Nat.lt_or_ge rest.length t.length with hlt | hge
      · exfalso
        have hw : ∃ c, w.getLast? = some c := by
          cases hg : w.getLast? with
          | none => simp at hg; exact absurd hg h2
          | some c => exact ⟨c, rfl⟩
        obtain ⟨c, hc⟩ := hw
        have hcw : c ∈ w := List.mem_of_getLast? hc
        obtain ⟨w0, rfl⟩ : ∃ w0, w = w0 ++ [c] := by
          refine ⟨w.dropLast, ?_⟩
          have hg := List.getLast?_eq_some_getLast h2
          rw [hc] at hg
          rw [Option.some.inj hg, List.dropLast_concat_getLast]
        have hsuf : (c :: rest) <:+ t := by
          apply List.suffix_of_suffix_length_le (l₃ := s ++ t)
          · exact ⟨ws ++ w0, by rw [hs]; simp⟩
          · exact List.suffix_append _ _
          · simp; omega
        have := ht c (hsuf.subset (by simp))
        rw [h3 c (by simp)] at this
        exact absurd this (by simp)
      · exact hge
    have hsuf : t <:+ rest := by
      apply List.suffix_of_suffix_length_le (l₃ := s ++ t)
      · exact List.suffix_append _ _
      · exact ⟨ws ++ w, by rw [hs]⟩
      · exact hlen
    obtain ⟨r0, hr0⟩ := hsuf
    have hs' : s = ws ++ w ++ r0 := by
      rw [← hr0, ← List.append_assoc] at hs
      exact List.append_cancel_right hs
    rw [hs']
    refine Words.cons ws w r0 ts h1 h2 h3 ?_ (ih hr0)
    cases r0 with
    | nil => exact Or.inl rfl
    | cons d ds =>
      rcases h4 with h4 | ⟨c, cs, h4, hc⟩
      · rw [h4] at hr0; simp at hr0
      · rw [h4] at hr0
        simp only [List.cons_append, List.cons.injEq] at hr0
        exact Or.inr ⟨d, ds, rfl, hr0.1 ▸ hc⟩

theorem splitWs_strip (s : Str) : splitWs (strip s) = splitWs s := by
  rw [splitWs_iff]
  unfold strip
  obtain ⟨t, h1, h2⟩ := rstrip_prefix (lstrip s)
  refine words_append_space (t := t) ?_ h2
  rw [← h1]
  exact words_lstrip (splitWs_words s)

/-! ## Words and values -/

theorem ofStr_cases (t : Str) :
    (∃ p : Platform, lowerS t = p.name ∧ SelValue.ofStr t = .platform p) ∨
    (∃ o : OS, lowerS t = o.name ∧ SelValue.ofStr t = .os o) ∨
    (∃ a : Arch, lowerS t = a.name ∧ SelValue.ofStr t = .arch a) ∨
    (∃ o : LogicOp, lowerS t = o.name ∧ SelValue.ofStr t = .op o) ∨
    ((∀ p : Platform, lowerS t ≠ p.name) ∧ (∀ o : OS, lowerS t ≠ o.name) ∧ (∀ a : Arch, lowerS t ≠ a.name) ∧
      (∀ o : LogicOp, lowerS t ≠ o.name) ∧ SelValue.ofStr t = .text t) := by
  unfold SelValue.ofStr
  simp only
  cases h1 : Platform.all.find? (fun p => p.name = lowerS t) with
  | some p => exact Or.inl ⟨p, by simpa using (by simpa using List.find?_some h1 : p.name = lowerS t).symm, rfl⟩
  | none =>
    cases h2 : OS.all.find? (fun p => p.name = lowerS t) with
    | some p => exact Or.inr (Or.inl ⟨p, by simpa using (by simpa using List.find?_some h2 : p.name = lowerS t).symm, rfl⟩)
    | none =>
      cases h3 : Arch.all.find? (fun p => p.name = lowerS t) with
      | some p => exact Or.inr (Or.inr (Or.inl ⟨p, by simpa using (by simpa using List.find?_some h3 : p.name = lowerS t).symm, rfl⟩))
      | none =>
        cases h4 : LogicOp.all.find? (fun p => p.name = lowerS t) with
        | some p => exact Or.inr (Or.inr (Or.inr (Or.inl ⟨p, by simpa using (by simpa using List.find?_some h4 : p.name = lowerS t).symm, rfl⟩)))
        | none =>
          refine Or.inr (Or.inr (Or.inr (Or.inr ⟨?_, ?_, ?_, ?_, rfl⟩)))
          · intro p hp
            have := List.find?_eq_none.1 h1 p (by cases p <;> decide)
            simp [hp] at this
          · intro p hp
            have := List.find?_eq_none.1 h2 p (by cases p <;> decide)
            simp [hp] at this
          · intro p hp
            have := List.find?_eq_none.1 h3 p (by cases p <;> decide)
            simp [hp] at this
          · intro p hp
            have := List.find?_eq_none.1 h4 p (by cases p <;> decide)
            simp [hp] at this


theorem osWord_unknown {w : Str} (h : ∀ o : OS, w ≠ o.name) (p : Str) : osWord w p = false := by
  have h1 := h .linux; have h2 := h .osx; have h3 := h .unix; have h4 := h .win
  simp only [OS.name] at h1 h2 h3 h4
  simp [osWord, h1, h2, h3, h4]

theorem archWord_unknown {w : Str} (h : ∀ o : Arch, w ≠ o.name) (p : Str) : archWord w p = false := by
  have h1 := h .s390x; have h2 := h .x86; have h3 := h .x86_64; have h4 := h .arm64
  have h5 := h .armv6l; have h6 := h .armv7l; have h7 := h .ppc64; have h8 := h .ppc64le
  simp only [Arch.name] at h1 h2 h3 h4 h5 h6 h7 h8
  simp [archWord, h1, h2, h3, h4, h5, h6, h7, h8]

theorem platformsOfOS_eq (o : OS) (p : Platform) : platformsOfOS o p = osWord o.name p.name := by
  cases o <;> cases p <;> decide

theorem platformsOfArch_eq (a : Arch) (p : Platform) : platformsOfArch a p = archWord a.name p.name := by
  cases a <;> cases p <;> decide +kernel

theorem getPlatformsByOS_eq (s : Str) (p : Platform) : getPlatformsByOS s p = osWord (lowerS (strip s)) p.name := by
  unfold getPlatformsByOS
  cases h : OS.all.find? (fun a => a.name = lowerS (strip s)) with
  | some o =>
    have ho : o.name = lowerS (strip s) := by simpa using List.find?_some h
    rw [← ho]
    exact platformsOfOS_eq o p
  | none =>
    rw [osWord_unknown]
    · simp [PSet.of]
    · intro o ho
      have := List.find?_eq_none.1 h o (by cases o <;> decide)
      simp [ho] at this

theorem getPlatformsByArch_eq (s : Str) (p : Platform) :
    getPlatformsByArch s p = archWord (lowerS (strip s)) p.name := by
  unfold getPlatformsByArch
  cases h : Arch.all.find? (fun a => a.name = lowerS (strip s)) with
  | some o =>
    have ho : o.name = lowerS (strip s) := by simpa using List.find?_some h
    rw [← ho]
    exact platformsOfArch_eq o p
  | none =>
    rw [archWord_unknown]
    · simp [PSet.of]
    · intro o ho
      have := List.find?_eq_none.1 h o (by cases o <;> decide)
      simp [ho] at this

theorem eval_not (l r : Option SelTree) (p : Platform) :
    (SelTree.node (.op .not) l r).eval p = !(SelTree.evalO l p) := by rw [SelTree.eval]

theorem eval_and (l r : Option SelTree) (p : Platform) :
    (SelTree.node (.op .and) l r).eval p = (SelTree.evalO l p && SelTree.evalO r p) := by rw [SelTree.eval]

theorem eval_or (l r : Option SelTree) (p : Platform) :
    (SelTree.node (.op .or) l r).eval p = (SelTree.evalO l p || SelTree.evalO r p) := by rw [SelTree.eval]

theorem evalO_some (t : SelTree) (p : Platform) : SelTree.evalO (some t) p = t.eval p := by rw [SelTree.evalO]

theorem replicate_snoc {α : Type} (k : Nat) (a : α) (l : List α) :
    List.replicate k a ++ a :: l = a :: (List.replicate k a ++ l) := by
  induction k with
  | zero => rfl
  | succ k ih => simp [List.replicate_succ, ih]

/-- The platforms selected by a single word. -/
theorem leaf_eval (t : Str) (ho : lowerS t ∉ [§"and", §"or", §"not"]) (l r : Option SelTree) (p : Platform) :
    (SelTree.node (SelValue.ofStr t) l r).eval p = wordHolds (lowerS t) p.name := by
  rcases ofStr_cases t with ⟨q, h, h'⟩ | ⟨o, h, h'⟩ | ⟨a, h, h'⟩ | ⟨o, h, h'⟩ | ⟨h1, h2, h3, h4, h'⟩
  · rw [h', h]
    simp only [SelTree.eval]
    cases q <;> cases p <;> decide +kernel
  · rw [h', h]
    simp only [SelTree.eval]
    rw [getPlatformsByOS_eq]
    cases o <;> cases p <;> decide +kernel
  · rw [h', h]
    simp only [SelTree.eval]
    rw [getPlatformsByArch_eq]
    cases a <;> cases p <;> decide +kernel
  · exfalso
    rw [h] at ho
    cases o <;> exact absurd ho (by decide)
  · rw [h']
    simp [SelTree.eval, PSet.of, wordHolds, h1 p, osWord_unknown h2, archWord_unknown h3]

theorem leaf_not_op (t : Str) (ho : lowerS t ∉ [§"and", §"or", §"not"]) (o : LogicOp) : SelValue.ofStr t ≠ .op o := by
  intro he
  rcases ofStr_cases t with ⟨q, h, h'⟩ | ⟨o, h, h'⟩ | ⟨a, h, h'⟩ | ⟨o, h, h'⟩ | ⟨h1, h2, h3, h4, h'⟩
  · rw [h'] at he; cases he
  · rw [h'] at he; cases he
  · rw [h'] at he; cases he
  · rw [h] at ho
    cases o <;> exact absurd ho (by decide)
  · rw [h'] at he; cases he

theorem op_ofStr (t : Str) (o : LogicOp) (h : lowerS t = o.name) : SelValue.ofStr t = .op o := by
  unfold SelValue.ofStr
  rw [h]
  cases o <;> rfl

/-! ## The shunting yard on a chain of literals -/

/-- Postfix code of a literal, top of the stack first. -/
def litCode (k : Nat) (v : SelValue) : List SelValue := List.replicate k (.op .not) ++ [v]

theorem popNots_replicate (k : Nat) (ops : List LogicOp) (post : List SelValue) (h : ops.head? ≠ some .not) :
    popNots (List.replicate k .not ++ ops) post = (ops, List.replicate k (.op .not) ++ post) := by
  induction k generalizing post with
  | zero =>
    cases ops with
    | nil => rfl
    | cons o os =>
      cases o with
      | not => simp at h
      | _ => rfl
  | succ k ih =>
    simp only [List.replicate_succ, List.cons_append, popNots]
    rw [ih, replicate_snoc]

theorem shunt_nots (k : Nat) (ns ts : List Str) (hn : ns.map lowerS = List.replicate k §"not") (ops : List LogicOp)
    (post : List SelValue) : shunt (ns ++ ts) ops post = shunt ts (List.replicate k .not ++ ops) post := by
  induction k generalizing ns ops with
  | zero =>
    have : ns = [] := by simpa using hn
    subst this; rfl
  | succ k ih =>
    cases ns with
    | nil => simp at hn
    | cons n ns =>
      simp only [List.map_cons, List.replicate_succ, List.cons.injEq] at hn
      simp only [List.cons_append, shunt, op_ofStr n .not hn.1]
      rw [ih ns hn.2, replicate_snoc]
      rfl

theorem shunt_leaf (t : Str) (ho : lowerS t ∉ [§"and", §"or", §"not"]) (ts : List Str) (ops : List LogicOp)
    (post : List SelValue) : shunt (t :: ts) ops post = shunt ts ops (SelValue.ofStr t :: post) := by
  have h := leaf_not_op t ho
  simp only [shunt]
  cases hv : SelValue.ofStr t with
  | op o => exact absurd hv (h o)
  | _ => rfl

theorem shunt_bin (t : Str) (o : LogicOp) (ho : o ≠ .not) (h : lowerS t = o.name) (ts : List Str) (ops : List LogicOp)
    (post : List SelValue) :
    shunt (t :: ts) ops post = shunt ts (o :: (popNots ops post).1) (popNots ops post).2 := by
  simp only [shunt, op_ofStr t o h]

/-- Reading off a literal from the top of the stack. -/
theorem process_lit (k : Nat) (v : SelValue) (hv : ∀ o, v ≠ .op o) (fuel : Nat) (hf : k < fuel) (st : List SelValue) :
    ∃ t, processPostfix fuel (litCode k v ++ st) = (some t, st) ∧
      ∀ p, t.eval p = if k % 2 = 0 then (SelTree.node v none none).eval p else !(SelTree.node v none none).eval p := by
  induction k generalizing fuel with
  | zero =>
    obtain ⟨f, rfl⟩ : ∃ f, fuel = f + 1 := ⟨fuel - 1, by omega⟩
    refine ⟨.node v none none, ?_, by simp⟩
    cases v with
    | op o => exact absurd rfl (hv o)
    | _ => rfl
  | succ k ih =>
    obtain ⟨f, rfl⟩ : ∃ f, fuel = f + 1 := ⟨fuel - 1, by omega⟩
    obtain ⟨t, h1, h2⟩ := ih f (by omega)
    refine ⟨.node (.op .not) (some t) none, ?_, ?_⟩
    · show processPostfix (f + 1) (.op .not :: (litCode k v ++ st)) = _
      simp only [processPostfix, h1]
    · intro p
      rw [eval_not, evalO_some, h2]
      rcases Nat.mod_two_eq_zero_or_one k with hk | hk
      · have : (k + 1) % 2 = 1 := by omega
        simp [hk, this]
      · have : (k + 1) % 2 = 0 := by omega
        simp [hk, this]

/-- A chain of literals: how many `not`s, the value, and the operator that follows (`true` for `and`). -/
def chainOps (l : List (Bool × (Nat × SelValue))) : List LogicOp := l.map fun x => if x.1 then .and else .or

/-- Value of a chain, to the right. -/
def chainEval (p : Platform) (first : Nat × SelValue) : List (Bool × (Nat × SelValue)) → Bool
  | [] => lit first
  | (true, x) :: r => lit first && chainEval p x r
  | (false, x) :: r => lit first || chainEval p x r
where
  lit (x : Nat × SelValue) : Bool :=
    if x.1 % 2 = 0 then (SelTree.node x.2 none none).eval p else !(SelTree.node x.2 none none).eval p

/-- Literal codes of a chain, last literal on top. -/
def chainLits (first : Nat × SelValue) (l : List (Bool × (Nat × SelValue))) : List SelValue :=
  ((first :: l.map (·.2)).reverse.map fun x => litCode x.1 x.2).flatten

theorem chainLits_cons (first : Nat × SelValue) (x : Bool × (Nat × SelValue)) (l : List (Bool × (Nat × SelValue))) :
    chainLits first (x :: l) = chainLits x.2 l ++ litCode first.1 first.2 := by
  simp [chainLits]

theorem process_chain (first : Nat × SelValue) (l : List (Bool × (Nat × SelValue)))
    (hv : ∀ x ∈ first :: l.map (·.2), ∀ o, x.2 ≠ .op o) (st : List SelValue) (fuel : Nat)
    (hf : (chainOps l).length + (chainLits first l).length ≤ fuel) :
    ∃ t, processPostfix fuel ((chainOps l).map .op ++ chainLits first l ++ st) = (some t, st) ∧
      ∀ p, t.eval p = chainEval p first l := by
  induction l generalizing first st fuel with
  | nil =>
    have h0 : chainLits first [] = litCode first.1 first.2 := by simp [chainLits]
    rw [h0] at hf ⊢
    have hlen : (litCode first.1 first.2).length = first.1 + 1 := by simp [litCode]
    obtain ⟨t, h1, h2⟩ := process_lit first.1 first.2 (hv first (by simp)) fuel (by simp [chainOps] at hf; omega) st
    exact ⟨t, by simpa [chainOps] using h1, fun p => by rw [h2 p]; rfl⟩
  | cons x l ih =>
    have hlen : (litCode first.1 first.2).length = first.1 + 1 := by simp [litCode]
    rw [chainLits_cons] at hf ⊢
    simp only [chainOps, List.map_cons, List.length_cons, List.length_append, List.length_map] at hf
    obtain ⟨f, rfl⟩ : ∃ f, fuel = f + 1 := ⟨fuel - 1, by omega⟩
    obtain ⟨r, hr1, hr2⟩ := ih x.2 (by
      intro y hy; exact hv y (List.mem_cons_of_mem _ (by simpa using hy)))
      (litCode first.1 first.2 ++ st) f (by simp [chainOps]; omega)
    obtain ⟨t, ht1, ht2⟩ := process_lit first.1 first.2 (hv first (by simp)) f (by omega) st
    have hstack : (chainOps (x :: l)).map SelValue.op ++ (chainLits x.2 l ++ litCode first.1 first.2) ++ st =
        .op (if x.1 then .and else .or) ::
          ((chainOps l).map .op ++ chainLits x.2 l ++ (litCode first.1 first.2 ++ st)) := by
      simp [chainOps]
    rw [hstack]
    obtain ⟨b, x⟩ := x
    cases b
    · refine ⟨.node (.op .or) (some t) (some r), ?_, ?_⟩
      · simp only [Bool.false_eq_true, if_false, processPostfix, hr1, ht1]
      · intro p
        rw [eval_or, evalO_some, evalO_some, hr2, ht2]; rfl
    · refine ⟨.node (.op .and) (some t) (some r), ?_, ?_⟩
      · simp only [if_true, processPostfix, hr1, ht1]
      · intro p
        rw [eval_and, evalO_some, evalO_some, hr2, ht2]; rfl

end Crm

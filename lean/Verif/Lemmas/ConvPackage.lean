import Verif.Lemmas.ConvSteps
import Verif.Spec.ConvPackage

/-! # Lemmas: the package that is converted -/

namespace Crm
open Spec Act

section
variable {E : Env} {comps : List Str} {pos : Pos} {n : Node} {ks : List Node}

/-! ## A section inside a section -/

theorem InSection.at {sub : List Str} {a b cs : List Node} {m : Node} {act : Act α} {x : α}
    {says : List (Category × Str)} (hk : ks = a ++ m :: b)
    (hsub : ∀ c, Section c comps pos n ks → Section c sub (pos ++ [a.length]) m m.children)
    (h : InSection sub (pos ++ [a.length]) m m.children act x cs says)
    (hh : Host comps n (a ++ { m with children := cs } :: b)) :
    InSection comps pos n ks act x (a ++ { m with children := cs } :: b) says := by
  intro c hc
  obtain ⟨c', h1, h2, _⟩ := h c (hsub c hc)
  have ht : c'.v1.root = setKids c.v1.root pos (a ++ { m with children := cs } :: b) := by
    rw [becomes_eq h2.tree, setKids_nested hc.node hk]
  refine ⟨c', h1, ⟨h2.original, ?_, h2.rest, h2.messages⟩, hc.set hh ht⟩
  rw [ht]
  exact setKids_changed hc.node _

theorem InSection.below {x : Str} (hx : KeyName x) {a b cs : List Node} {m : Node} {act : Act α} {y : α}
    {says : List (Category × Str)} (hk : ks = a ++ m :: b) (hf : First x a m) (hkey : m.key = true)
    (h : InSection (comps ++ [x]) (pos ++ [a.length]) m m.children act y cs says)
    (hh : Host comps n (a ++ { m with children := cs } :: b)) :
    InSection comps pos n ks act y (a ++ { m with children := cs } :: b) says :=
  InSection.at hk (fun _ hc => hc.sub hx hk hf hkey) h hh

theorem host_named {x : Str} (hx : KeyName x) {m : Node} (hkey : m.key = true) (hv : m.value = .str x) (cs : List Node) :
    Host (comps ++ [x]) m cs := Or.inl ⟨Or.inl hkey, by simp [hv], Section.keyPlace hx⟩

/-- A list of children that is not empty stays a place to put keys in. -/
theorem Spec.Host.keep {ks' : List Node} (h : Host comps n ks) (hne : ks' ≠ []) : Host comps n ks' := by
  rcases h with ⟨_, h⟩ | ⟨h1, h2, h3, _⟩
  · exact Or.inl ⟨Or.inr hne, h⟩
  · exact Or.inr ⟨h1, h2, h3, hne⟩

theorem InSection.inKey {x : Str} (hx : KeyName x) {R : Step} {act : Act Unit} {ks' : List Node}
    {says : List (Category × Str)} (hh : Host comps n ks) (hr : InKey x R ks ks' says)
    (ha : Absent x ks → InSection comps pos n ks act () ks [])
    (hb : ∀ a m b cs s, ks = a ++ m :: b → First x a m → m.key = true → R m.children cs s →
      InSection (comps ++ [x]) (pos ++ [a.length]) m m.children act () cs s) :
    InSection comps pos n ks act () ks' says := by
  cases hr with
  | absent h => exact ha h
  | present h =>
    cases h with
    | mk h1 h2 h3 h4 => exact InSection.below hx h1 h2 h3 (hb _ _ _ _ _ h1 h2 h3 h4) (hh.keep (by simp))

/-! ## Paths with two names -/

theorem path_two {base ext : Str} {x y : Str} (hc : ∀ c ∈ comps, Component c) (hx : Component x) (hy : Component y)
    (hb : base = absPath comps ∨ base = absPath comps ++ §"/") (he : ext = '/' :: x ++ '/' :: y) :
    Recipe.appendToPath base ext = absPath (comps ++ [x] ++ [y]) := by
  have := (C02_append_walks {} comps [x, y] hc (by simpa using ⟨hx, hy⟩) (by simp) base ext hb
    (Or.inl (by simp [absPath, he]))).1
  simpa using this

theorem contains_below {c : Conv} (h : Section c comps pos n ks) {x y : Str} (hx : KeyName x) (hy : KeyName y) :
    ∃ b, c.v1.containsValue (absPath (comps ++ [x] ++ [y])) = .ok b ∧ (b = true ↔ HasBelow x y ks) := by
  have hp : ∀ z ∈ comps ++ [x] ++ [y], Component z := by
    intro z hz
    rcases List.mem_append.1 hz with hz | hz
    · exact h.keyPath hx z hz
    · rw [List.mem_singleton.1 hz]; exact hy.1
  have hcv : c.v1.containsValue (absPath (comps ++ [x] ++ [y])) = .ok (locate c.v1.root (comps ++ [x] ++ [y])).isSome := by
    unfold Recipe.containsValue
    simp only [strToStack_absPath _ (by simp) hp, Bind.bind, Except.bind, traverse_locate]
  refine ⟨_, hcv, ?_⟩
  rw [locate_concat]
  rcases absent_or_first x ks with ha | ⟨a, m, b, hk, hf⟩
  · rw [h.locateAbsent hx ha]
    simp only [Option.bind_none, Option.isSome_none, Bool.false_eq_true, false_iff]
    rintro ⟨a, m, b, hk, hf, _⟩
    exact ha m (by simp [hk]) hf.named
  · obtain ⟨h1, h2⟩ := h.locateFirst hx hk hf
    rw [h1]
    simp only [Option.bind_some, h2, childIdx, hy.2.1, Bool.false_eq_true, if_false, Option.isSome_map]
    rw [List.findIdx?_isSome]
    constructor
    · intro he
      refine ⟨a, m, b, hk, hf, fun ha => ?_⟩
      rw [any_absent ha] at he; cases he
    · rintro ⟨a', m', b', hk', hf', hab⟩
      have : m' = m := by
        obtain ⟨g1, g2⟩ := h.locateFirst hx hk' hf'
        rw [g1] at h1
        injection h1 with h1
        rw [h1, h2] at g2
        injection g2 with g2
        exact g2.symm
      subst this
      rcases absent_or_first y m'.children with ha | ⟨a2, m2, b2, hk2, hf2⟩
      · exact absurd ha hab
      · rw [hk2]; exact any_first hf2

theorem InSection.hasBelow {x y : Str} (hx : KeyName x) (hy : KeyName y) (h : HasBelow x y ks) :
    InSection comps pos n ks (hasPath (absPath (comps ++ [x] ++ [y]))) true ks [] :=
  InSection.askOk fun c hc => by
    obtain ⟨b, h1, h2⟩ := contains_below hc hx hy
    rw [h1, h2.2 h]

theorem InSection.notBelow {x y : Str} (hx : KeyName x) (hy : KeyName y) (h : ¬ HasBelow x y ks) :
    InSection comps pos n ks (hasPath (absPath (comps ++ [x] ++ [y]))) false ks [] :=
  InSection.askOk fun c hc => by
    obtain ⟨b, h1, h2⟩ := contains_below hc hx hy
    rw [h1]
    cases b with
    | false => rfl
    | true => exact absurd (h2.1 rfl) h

theorem InSection.valueBelow {x y : Str} (hx : KeyName x) (hy : KeyName y) {o : Option PyVal} (h : ValueBelow E x y ks o)
    (d : PyVal) : InSection comps pos n ks (valueAt E (absPath (comps ++ [x] ++ [y])) (some d)) (o.getD d) ks [] := by
  cases h with
  | absent hb =>
    refine InSection.askOk fun c hc => ?_
    obtain ⟨b, h1, h2⟩ := contains_below hc hx hy
    have hp : ∀ z ∈ comps ++ [x] ++ [y], Component z := by
      intro z hz
      rcases List.mem_append.1 hz with hz | hz
      · exact hc.keyPath hx z hz
      · rw [List.mem_singleton.1 hz]; exact hy.1
    have hl : locate c.v1.root (comps ++ [x] ++ [y]) = none := by
      cases hl : locate c.v1.root (comps ++ [x] ++ [y]) with
      | none => rfl
      | some p =>
        exfalso
        apply hb
        apply h2.1
        have : c.v1.containsValue (absPath (comps ++ [x] ++ [y])) = .ok true := by
          unfold Recipe.containsValue
          simp only [strToStack_absPath _ (by simp) hp, Bind.bind, Except.bind, traverse_locate, hl]
          rfl
        rw [this] at h1
        injection h1 with h1
        exact h1.symm
    unfold Recipe.getValue getValueIn
    simp only [strToStack_absPath _ (by simp) hp, Bind.bind, Except.bind, traverse_locate, hl, Option.bind_none]
    rfl
  | present hk hf hkey hv =>
    refine InSection.askOk fun c hc => ?_
    obtain ⟨c', h1, _⟩ := InSection.valueOf (E := E) (comps := comps ++ [x]) hy hv d c (hc.sub hx hk hf hkey)
    simp only [valueAt, ask, Prod.mk.injEq] at h1
    exact h1.1

/-! ## From `build` to `requirements` -/

/-- Another node of the same name in the place of one does not change which key is the first of another name. -/
theorem first_swap {x y : Str} {a p a' p' : List Node} {k k' m : Node} (hxy : x ≠ y) (hk : k.value = .str x)
    (hk' : k'.value = .str x) (hs : a ++ k' :: p = a' ++ m :: p') (hf : First y a' m) :
    ∃ a'' p'', a ++ k :: p = a'' ++ m :: p'' ∧ First y a'' m := by
  have hne : ∀ z : Node, z.value = .str x → z.value ≠ .str y := by
    intro z h1 h2
    rw [h1] at h2; injection h2 with h2; exact hxy h2
  rcases List.append_eq_append_iff.1 hs with ⟨d, rfl, h2⟩ | ⟨d, rfl, h2⟩
  · cases d with
    | nil =>
      simp only [List.nil_append, List.cons.injEq] at h2
      exact absurd hf.named (h2.1 ▸ hne k' hk')
    | cons d ds =>
      simp only [List.cons_append, List.cons.injEq] at h2
      obtain ⟨rfl, rfl⟩ := h2
      refine ⟨a ++ k :: ds, p', by simp, hf.named, ?_⟩
      intro z hz
      rcases List.mem_append.1 hz with hz | hz
      · exact hf.first z (by simp [hz])
      · rcases List.mem_cons.1 hz with rfl | hz
        · exact hne z hk
        · exact hf.first z (by simp [hz])
  · cases d with
    | nil =>
      simp only [List.nil_append, List.cons.injEq] at h2
      exact absurd hf.named (h2.1.symm ▸ hne k' hk')
    | cons d ds =>
      simp only [List.cons_append, List.cons.injEq] at h2
      obtain ⟨rfl, rfl⟩ := h2
      exact ⟨a', ds ++ k :: p, by simp, hf⟩

theorem Spec.Section.moveAcross {c : Conv} (h : Section c comps pos n ks) {g g' x y : Str} (hg : KeyName g) (hg' : KeyName g')
    (hx : KeyName x) (hy : KeyName y) (hne : g ≠ g') {ks2 ks3 : List Node} {v : PyVal}
    (h1 : Below g (quiet (Taken E x v)) ks ks2 []) (h2 : Below g' (quiet (Put E y v)) ks2 ks3 []) :
    c.v1.patch E (moveOp (absPath (comps ++ [g] ++ [x])) (absPath (comps ++ [g'] ++ [y]))) =
      (.ok true, edited c.v1 (setKids c.v1.root pos ks3)) := by
  cases h1 with
  | @mk _ a b cs m _ hk hf hkey ht =>
    generalize hq : a ++ { m with children := cs } :: b = q at h2
    cases h2 with
    | @mk _ a' b' cs' m' _ hk' hf' hkey' hp =>
      subst hk'
      have ht := ht.1
      have hp := hp.1
      have hsub := h.sub hg hk hf hkey
      have hs : Section { c with v1 := edited c.v1 (setKids c.v1.root pos (a ++ { m with children := cs } :: b)) } comps pos n
          (a ++ { m with children := cs } :: b) := h.set (h.host.keep (by simp)) rfl
      have hroot : setKids c.v1.root (pos ++ [a.length]) cs = setKids c.v1.root pos (a ++ { m with children := cs } :: b) :=
        setKids_nested h.node hk cs
      obtain ⟨a2, b2, hs2, hf2⟩ := first_swap (k := m) hne hf.named (by exact hf.named) hq hf'
      have hpath : absPath (comps ++ [g] ++ [x]) ≠ absPath (comps ++ [g'] ++ [y]) := by
        intro he
        have hinj : g ++ '/' :: x = g' ++ '/' :: y := by simpa [absPath] using he
        have h1 := splitChar_append_sep '/' g hg.1.2 x
        have h2 := splitChar_append_sep '/' g' hg'.1.2 y
        rw [hinj, h2] at h1
        injection h1 with h1
        exact hne h1.symm
      refine hsub.moveTo E hx ht (absPath_snoc_ne _ _) hpath
        ((h.sub hg' (hk.trans hs2) hf2 hkey').put E hy ht.value_ok hp) ?_
      rw [hroot]
      have h3 := (hs.sub hg' hq hf' hkey').put E hy ht.value_ok hp
      rw [h3]
      simp only [edited]
      rw [setKids_nested (setKids_nodeAt h.node _) hq, setKids_setKids]

theorem across_in_section {base : Str} {field : Str} (hf : KeyName field)
    (hb : base = absPath comps ∨ base = absPath comps ++ §"/") (hc : ∀ c ∈ comps, Component c) (hh : Host comps n ks)
    {ks' : List Node} (hr : MovedAcross E field ks ks') :
    InSection comps pos n ks (moveToRequirements E base field) () ks' [] := by
  have h1 : KeyName §"build" := by decide
  have h2 : KeyName §"requirements" := by decide
  unfold moveToRequirements
  rw [path_two hc h1.1 hf.1 hb (show §"/build/" ++ field = '/' :: §"build" ++ '/' :: field by simp),
    path_two hc h2.1 hf.1 hb (show §"/requirements/" ++ field = '/' :: §"requirements" ++ '/' :: field by simp),
    path_key hc h2.1 hb (Or.inl rfl)]
  cases hr with
  | absent ha => exact InSection.bind0 (InSection.notBelow h1 hf ha) (InSection.pure ())
  | @moved ks1 ks2 _ v ha hen hb1 hb2 =>
    refine InSection.bind0 (InSection.hasBelow h1 hf ha) ?_
    have hmove : InSection comps pos n ks1 (do
        let _ ← patchAndLog E (moveOp (absPath (comps ++ [§"build"] ++ [field])) (absPath (comps ++ [§"requirements"] ++ [field])))
        Pure.pure PUnit.unit) () ks' [] := by
      have hne : ks' ≠ [] := by cases hb2; simp
      exact (InSection.patched (hh.keep hne) fun c hc => hc.moveAcross h1 h2 hf hf (by decide) hb1 hb2).void
    cases hen with
    | there hp =>
      rcases absent_or_first §"requirements" ks with h | ⟨pre, k, post, hk, hfk⟩
      · exact absurd h hp
      · exact InSection.bind0 (InSection.key h2 hk hfk) hmove
    | added hab hput _ =>
      refine InSection.bind0 (InSection.noKey h2 hab) ?_
      have hne : ks1 ≠ [] := by cases hb1 with | mk e _ _ _ => rw [e]; simp
      exact InSection.bind (s1 := []) (InSection.patched (hh.keep hne) fun c hc => hc.put E h2 (by simp) hput) hmove

/-! ## Elements of a list -/

theorem childIdx_element {a b : List Node} {m q : Node} {i : Nat} (hq : q.children = a ++ m :: b) (hi : realCount a = i)
    (hr : m.isComment = false) (hl : m.listMember = true) : childIdx q (natStr i) = some a.length := by
  unfold childIdx
  rw [if_pos (isDigitS_natStr i), List.find?_range_eq_some]
  refine ⟨?_, ?_, ?_⟩
  · rw [hq, natOfStr_natStr]
    have : real m = true := by simp [real, hr]
    simp only [List.getElem?_append_right (Nat.le_refl _), Nat.sub_self, List.getElem?_cons_zero,
      this, hl, Bool.and_self, Bool.true_and, List.take_left', decide_eq_true_eq]
    exact hi
  · rw [hq]; simp
  · intro j hj
    rw [hq, List.getElem?_append_left hj, natOfStr_natStr]
    simp only [List.getElem?_eq_getElem hj]
    cases hrj : real a[j] with
    | false => rfl
    | true =>
      have hlt : (List.take j (a ++ m :: b)).countP real < i := by
        rw [List.take_append_of_le_length (by omega), ← hi]
        have h1 : a.countP real = (a.take j).countP real + (a.drop j).countP real := by
          rw [← List.countP_append, List.take_append_drop]
        have h2 : 0 < (a.drop j).countP real := by
          rw [List.countP_pos_iff]
          exact ⟨a[j], by rw [List.mem_drop_iff_getElem]; exact ⟨0, by omega, by simp⟩, hrj⟩
        unfold realCount
        omega
      have : decide ((List.take j (a ++ m :: b)).countP real = i) = false := by
        rw [decide_eq_false_iff_not]; omega
      rw [this]
      simp

theorem natStr_comp (i : Nat) : Component (natStr i) := ⟨natStr_ne_nil i, natStr_no_slash i⟩

theorem Spec.Section.locateElement {c : Conv} (h : Section c comps pos n ks) {a b : List Node} {m : Node} {i : Nat}
    (hk : ks = a ++ m :: b) (hi : realCount a = i) (hr : m.isComment = false) (hl : m.listMember = true) :
    locate c.v1.root (comps ++ [natStr i]) = some (pos ++ [a.length]) ∧ nodeAt c.v1.root (pos ++ [a.length]) = some m := by
  refine ⟨?_, ?_⟩
  · rw [locate_concat, h.place]
    simp only [Option.bind_some, h.node]
    rw [childIdx_element (q := { n with children := ks }) hk hi hr hl]
    rfl
  · rw [nodeAt_append, h.node]
    simp [nodeAt, hk]

theorem Spec.Section.elementPath {c : Conv} (h : Section c comps pos n ks) (i : Nat) :
    ∀ y ∈ comps ++ [natStr i], Component y := by
  intro y hy
  rcases List.mem_append.1 hy with hy | hy
  · exact h.path y hy
  · rw [List.mem_singleton.1 hy]; exact natStr_comp i

theorem Spec.Section.element {c : Conv} (h : Section c comps pos n ks) {a b : List Node} {m : Node} {i : Nat}
    (hk : ks = a ++ m :: b) (hi : realCount a = i) (he : ElementWithKeys m m.children) :
    Section c (comps ++ [natStr i]) (pos ++ [a.length]) m m.children := by
  obtain ⟨e1, e2, e3, e4⟩ := he
  obtain ⟨h1, h2⟩ := h.locateElement hk hi (by simp [Node.isComment, e3]) e2
  refine ⟨h.elementPath i, h1, ?_, Or.inr ⟨e1, e2, e3, e4⟩⟩
  rw [h2]; cases m; rfl

theorem Spec.Section.removeElement {c : Conv} (h : Section c comps pos n ks) {ks' : List Node} {i : Nat}
    (ht : ElementTaken i ks ks') : c.v1.patch E (removeOp (absPath (comps ++ [natStr i]))) =
      (.ok true, edited c.v1 (setKids c.v1.root pos ks')) := by
  cases ht with
  | @mk a b m hi hr hl =>
    obtain ⟨h1, h2⟩ := h.locateElement rfl hi hr hl
    have := (C09_remove E c.v1 (removeOp (absPath (comps ++ [natStr i]))) comps (natStr i) (h.elementPath i)
      (isPatch_removeOp (absPath_snoc_ne _ _))).2 _ _ _ h1 h2
    rw [if_neg (by simp [bareValue, hl])] at this
    obtain ⟨root', h3, h4⟩ := this
    obtain ⟨q, ks', hq, hw, rfl⟩ := changed_setKids h4
    rw [h.node] at hq
    injection hq with hq
    subst hq
    rw [h3, without_split hw rfl]

theorem sourceElement_in_section (hc : ∀ x ∈ comps, Component x) {e : Node} {i : Nat} {a b : List Node}
    {cs : List Node} {says : List (Category × Str)} (hk : ks = a ++ e :: b) (hi : realCount a = i)
    (hh : ∀ ks, Host comps n ks)
    (he : ElementWithKeys e e.children) (h : SourceUpgraded E (ElementWithKeys e) e.children cs says) :
    InSection comps pos n ks (upgradeSource E (absPath (comps ++ [natStr i]))) () (a ++ { e with children := cs } :: b) says := by
  have hc' : ∀ x ∈ comps ++ [natStr i], Component x := by
    intro y hy
    rcases List.mem_append.1 hy with hy | hy
    · exact hc y hy
    · rw [List.mem_singleton.1 hy]; exact natStr_comp i
  have hmono : ∀ ks, ElementWithKeys e ks → Host (comps ++ [natStr i]) e ks := fun _ h => Or.inr h
  refine InSection.at hk (fun c hcs => hcs.element hk hi he) (source_in_section hc' (by simp) ?_) (hh _)
  obtain ⟨k1, h1, h2, h3⟩ := h.steps
  exact ⟨h.says_eq, k1, h1.weaken hmono, h2, hmono _ h3⟩

theorem sourceList_in_section (hc : ∀ x ∈ comps, Component x) (hh : ∀ ks, Host comps n ks) {i k : Nat} {ks' : List Node}
    {says : List (Category × Str)}
    (h : EachElement (fun e ks ks' s => ElementWithKeys e ks ∧ SourceUpgraded E (ElementWithKeys e) ks ks' s) i k ks ks' says) :
    InSection comps pos n ks (each (upgradeSource E) ((List.range' i k).map fun i => absPath (comps ++ [natStr i]))) () ks' says := by
  induction h with
  | done => exact InSection.each_nil _
  | step h1 _ ih =>
    rw [List.range'_succ, List.map_cons]
    cases h1 with
    | mk hk hi _ _ hr => exact InSection.each_cons (sourceElement_in_section hc hk hi hh hr.1 hr.2) ih

theorem sources_in_section {base : Str} (hb : base = absPath comps ∨ base = absPath comps ++ §"/")
    (hc : ∀ c ∈ comps, Component c) (hh : Host comps n ks) {ks' : List Node} {says : List (Category × Str)}
    (h : SourcesUpgraded E ks ks' says) :
    InSection comps pos n ks (upgradeSources E [base]) () ks' says := by
  have hk : KeyName §"source" := by decide
  have hc' : ∀ x ∈ comps ++ [§"source"], Component x := by
    intro y hy
    rcases List.mem_append.1 hy with hy | hy
    · exact hc y hy
    · rw [List.mem_singleton.1 hy]; exact hk.1
  refine InSection.each_one ?_
  simp only [path_key hc hk.1 hb (Or.inl rfl)]
  cases h with
  | absent ha => exact InSection.bind0 (InSection.noKey hk ha) (InSection.pure ())
  | single h1 h2 h3 h4 h5 h6 =>
    refine InSection.bind0 (InSection.key hk h1 h2) ?_
    refine InSection.bind0 (InSection.value hk h1 h2 h4 _) ?_
    rename_i a b cs m v
    have hu : InSection comps pos n ks (each (upgradeSource E) [absPath (comps ++ [§"source"])]) ()
        (a ++ { m with children := cs } :: b) says := by
      refine InSection.each_one (InSection.below hk h1 h2 h3 (source_in_section hc' (by simp) ?_) (hh.keep (by simp)))
      obtain ⟨k1, e1, e2, _⟩ := h6.steps
      exact ⟨h6.says_eq, k1, e1.mono (host_named hk h3 h2.named), e2, host_named hk h3 h2.named _⟩
    cases v with
    | list xs => exact absurd rfl (h5 xs)
    | _ => exact hu
  | several h1 h2 h3 h4 h5 =>
    refine InSection.bind0 (InSection.key hk h1 h2) ?_
    refine InSection.bind0 (InSection.value hk h1 h2 h4 _) ?_
    refine InSection.below hk h1 h2 h3 ?_ (hh.keep (by simp))
    rename_i a b cs m xs
    have := sourceList_in_section (pos := pos ++ [a.length]) hc' (host_named hk h3 h2.named) h5
    rw [← List.range_eq_range'] at this
    have he : ∀ i, Recipe.appendToPath (absPath (comps ++ [§"source"])) (§"/" ++ natStr i) =
        absPath (comps ++ [§"source"] ++ [natStr i]) := fun i => path_key hc' (natStr_comp i) (Or.inl rfl) (Or.inl rfl)
    simp only [he]
    exact this

/-! ## Tests -/

theorem Spec.Section.anyKids {c : Conv} {k : List Node} : Section c comps pos { n with children := k } ks ↔ Section c comps pos n ks :=
  ⟨fun h => ⟨h.path, h.place, h.node, h.host⟩, fun h => ⟨h.path, h.place, h.node, h.host⟩⟩

theorem InSection.lift {x : Str} (hx : KeyName x) {a b k k' : List Node} {m : Node} {act : Act α} {y : α}
    {says : List (Category × Str)} (hf : First x a m) (hkey : m.key = true) (hh : Host comps n ks)
    (h : InSection (comps ++ [x]) (pos ++ [a.length]) m k act y k' says) :
    InSection comps pos n (a ++ { m with children := k } :: b) act y (a ++ { m with children := k' } :: b) says :=
  InSection.below (m := { m with children := k }) hx rfl ⟨hf.named, hf.first⟩ hkey
    (fun c hc => by
      obtain ⟨c', h1, h2, h3⟩ := h c (Section.anyKids.1 hc)
      exact ⟨c', h1, h2, Section.anyKids.2 h3⟩)
    (hh.keep (by simp))

theorem into_in_section {base oldExt newExt old g new : Str} (hold : KeyName old) (hg : KeyName g) (hnew : KeyName new)
    (hne : old ≠ g) (hb : base = absPath comps ∨ base = absPath comps ++ §"/") (he : oldExt = '/' :: old)
    (he' : newExt = '/' :: g ++ '/' :: new) (hc : ∀ c ∈ comps, Component c) (hn : ∀ ks, Host comps n ks) {ks' : List Node}
    (hr : MovedInto E old g new ks ks') : InSection comps pos n ks (patchMoveBase E base oldExt newExt) () ks' [] := by
  unfold patchMoveBase
  rw [path_key hc hold.1 hb (Or.inl he), path_two hc hg.1 hnew.1 hb he']
  cases hr with
  | absent ha => exact InSection.bind0 (InSection.noKey hold ha) (InSection.pure ())
  | moved ht hp =>
    obtain ⟨pre, k, post, hk, hf⟩ := ht.split
    refine InSection.bind0 (InSection.key hold hk hf) ?_
    cases hp with
    | mk h1 h2 h3 h4 =>
      subst h1
      exact (InSection.patched (hn _) fun c hc => hc.moveBelow E hold hg hnew hne ht h2 h3 h4.1 (hn _)).void

theorem put_in_section {x : Str} (hx : KeyName x) {v : PyVal} (hv : v ≠ .sentinel) (hn : ∀ ks, Host comps n ks)
    {ks' : List Node} (hp : Put E x v ks ks') :
    InSection comps pos n ks (patchAndLog E (addOp (absPath (comps ++ [x])) v)) true ks' [] :=
  InSection.patched (hn _) fun _ hc => hc.put E hx hv hp

theorem putBelow_in_section {g x : Str} (hg : KeyName g) (hx : KeyName x) {v : PyVal} (hv : v ≠ .sentinel)
    (hn : ∀ ks, Host comps n ks) {ks' : List Node} (hp : Below g (quiet (Put E x v)) ks ks' []) :
    InSection comps pos n ks (patchAndLog E (addOp (absPath (comps ++ [g] ++ [x])) v)) true ks' [] := by
  cases hp with
  | mk h1 h2 h3 h4 =>
    exact InSection.below hg h1 h2 h3 (put_in_section hx hv (host_named hg h3 h2.named) h4.1) (hn _)

theorem take_in_section {x : Str} (hx : KeyName x) (hn : ∀ ks, Host comps n ks) {v : PyVal} {ks' : List Node}
    (ht : Taken E x v ks ks') : InSection comps pos n ks (patchAndLog E (removeOp (absPath (comps ++ [x])))) true ks' [] := by
  cases ht with
  | mk hk hf hb _ _ => exact InSection.remove hx hk hf hb (hn _)

theorem value_of_taken {x : Str} (hx : KeyName x) {v : PyVal} {ks' : List Node} (ht : Taken E x v ks ks') (d : Option PyVal) :
    InSection comps pos n ks (valueAt E (absPath (comps ++ [x])) d) v ks [] := by
  cases ht with
  | mk hk hf hb hv _ => exact InSection.value hx hk hf hv d

theorem has_of_not_absent {x : Str} (hx : KeyName x) (h : ¬ Absent x ks) :
    InSection comps pos n ks (hasPath (absPath (comps ++ [x]))) true ks [] := by
  rcases absent_or_first x ks with ha | ⟨_, _, _, hk, hf⟩
  · exact absurd ha h
  · exact InSection.key hx hk hf

theorem Spec.Taken.not_absent {x : Str} {v : PyVal} {ks' : List Node} (ht : Taken E x v ks ks') : ¬ Absent x ks := by
  obtain ⟨_, k, _, rfl, hf⟩ := ht.split
  exact fun h => h k (by simp) hf.named

theorem files_in_section (hc : ∀ c ∈ comps, Component c) (hn : ∀ ks, Host comps n ks) {ks' : List Node}
    (hr : FilesMoved E ks ks') : InSection comps pos n ks (upgradeTestFiles E (absPath comps)) () ks' [] := by
  have hf : KeyName §"files" := by decide
  have hs : KeyName §"source_files" := by decide
  have hp : ∀ c ∈ comps ++ [§"files"], Component c := by
    intro y hy
    rcases List.mem_append.1 hy with hy | hy
    · exact hc y hy
    · rw [List.mem_singleton.1 hy]; exact hf.1
  unfold upgradeTestFiles
  simp only [path_key hc hf.1 (Or.inl rfl) (Or.inl rfl), path_key hc hs.1 (Or.inl rfl) (Or.inl rfl),
    path_key (x := §"recipe") hp (by decide) (Or.inl rfl) (Or.inl rfl)]
  have mv : ∀ {ks ks' : List Node}, MovedInto E §"source_files" §"files" §"source" ks ks' →
      InSection comps pos n ks (patchMoveBase E (absPath comps) §"/source_files" §"/files/source") () ks' [] := fun h =>
    into_in_section hs hf (by decide) (by decide) (Or.inl rfl) rfl (by decide) hc hn h
  cases hr with
  | neither h1 h2 =>
    refine InSection.bind0 (InSection.noKey hf h1) ?_
    exact InSection.bind0 (InSection.noKey hs h2) (mv (.absent h2))
  | sources h1 h2 h3 h4 =>
    refine InSection.bind0 (InSection.noKey hf h1) ?_
    refine InSection.bind0 (has_of_not_absent hs h2) ?_
    exact InSection.bind (s1 := []) (ensure_in_section hf (Or.inl rfl) (Or.inl rfl) hc (.added h1 h3 (hn _))) (mv h4)
  | files h1 h2 h3 h4 =>
    refine InSection.bind0 (has_of_not_absent hf h1.not_absent) ?_
    refine InSection.bind0 (value_of_taken hf h1 _) ?_
    refine InSection.bind (s1 := []) (take_in_section hf hn h1) ?_
    refine InSection.bind (s1 := []) (put_in_section hf (by simp) hn h2) ?_
    exact InSection.bind (s1 := []) (putBelow_in_section hf (by decide) h1.value_ok hn h3) (mv h4)

theorem requires_in_section (hc : ∀ c ∈ comps, Component c) (hn : ∀ ks, Host comps n ks) {ks' : List Node} {K : Act Unit}
    {ks2 : List Node} {s : List (Category × Str)}
    (hr : MovedBelow E (fun _ => True) §"requires" §"requirements" §"run" ks ks')
    (hK : InSection comps pos n ks' K () ks2 s) : InSection comps pos n ks (do
      if ← hasPath (Recipe.appendToPath (absPath comps) §"/requires") then patchAddMissing E (absPath comps) §"/requirements"
      patchMoveBase E (absPath comps) §"/requires" §"/requirements/run"
      K) () ks2 s := by
  have h1 : KeyName §"requires" := by decide
  have h2 : KeyName §"requirements" := by decide
  have h3 : KeyName §"run" := by decide
  rw [path_key hc h1.1 (Or.inl rfl) (Or.inl rfl)]
  have mv : ∀ {ks ks' : List Node}, MovedInto E §"requires" §"requirements" §"run" ks ks' →
      InSection comps pos n ks (patchMoveBase E (absPath comps) §"/requires" §"/requirements/run") () ks' [] := fun h =>
    into_in_section h1 h2 h3 (by decide) (Or.inl rfl) rfl (by decide) hc hn h
  cases hr with
  | absent ha =>
    refine InSection.bind0 (InSection.noKey h1 ha) ?_
    exact InSection.bind (s1 := []) (mv (.absent ha)) hK
  | moved ha hen ht hfm hkey hp _ _ =>
    refine InSection.bind0 (has_of_not_absent h1 ha) ?_
    refine InSection.bind (s1 := []) (ensure_in_section h2 (Or.inl rfl) (Or.inl rfl) hc (hen.mono hn)) ?_
    exact InSection.bind (s1 := []) (mv (.moved ht (.mk rfl hfm hkey ⟨hp, rfl⟩))) hK

theorem imports_in_section (hc : ∀ c ∈ comps, Component c) (hn : ∀ ks, Host comps n ks) {ks' : List Node} {K : Act Unit}
    {ks2 : List Node} {s : List (Category × Str)}
    (hr : MovedBelow E (fun _ => True) §"imports" §"python" §"imports" ks ks')
    (hK : InSection comps pos n ks' K () ks2 s) : InSection comps pos n ks (do
      if ← hasPath (Recipe.appendToPath (absPath comps) §"/imports") then
        patchAddMissing E (absPath comps) §"/python"
        patchMoveBase E (absPath comps) §"/imports" §"/python/imports"
      K) () ks2 s := by
  have h1 : KeyName §"imports" := by decide
  have h2 : KeyName §"python" := by decide
  rw [path_key hc h1.1 (Or.inl rfl) (Or.inl rfl)]
  have mv : ∀ {ks ks' : List Node}, MovedInto E §"imports" §"python" §"imports" ks ks' →
      InSection comps pos n ks (patchMoveBase E (absPath comps) §"/imports" §"/python/imports") () ks' [] := fun h =>
    into_in_section h1 h2 h1 (by decide) (Or.inl rfl) rfl (by decide) hc hn h
  cases hr with
  | absent ha => exact InSection.bind0 (InSection.noKey h1 ha) hK
  | moved ha hen ht hfm hkey hp _ _ =>
    refine InSection.bind0 (has_of_not_absent h1 ha) ?_
    refine InSection.bind (s1 := []) (ensure_in_section h2 (Or.inl rfl) (Or.inl rfl) hc (hen.mono hn)) ?_
    exact InSection.bind (s1 := []) (mv (.moved ht (.mk rfl hfm hkey ⟨hp, rfl⟩))) hK

theorem isPipCheck_iff (v : PyVal) :
    (match v with | .str s => pipCheckVariants.contains s | _ => false) = true ↔ isPipCheck v := by
  unfold isPipCheck pipCheckVariants
  cases v with
  | str s => simp
  | _ => simp

theorem findPipCheck_none {xs : List PyVal} (h : ∀ x ∈ xs, ¬ isPipCheck x) : findPipCheck xs = none := by
  unfold findPipCheck
  rw [List.findIdx?_eq_none_iff]
  intro x hx
  have := h x hx
  rw [← isPipCheck_iff] at this
  cases x <;> simp_all

theorem findPipCheck_some {xs ys : List PyVal} {x : PyVal} (h : ∀ x ∈ xs, ¬ isPipCheck x) (hx : isPipCheck x) :
    findPipCheck (xs ++ x :: ys) = some xs.length := by
  have h1 := findPipCheck_none h
  rw [← isPipCheck_iff] at hx
  unfold findPipCheck at h1 ⊢
  rw [List.findIdx?_append, h1, List.findIdx?_cons, if_pos (by cases x <;> simp_all)]
  simp

/-- The part of `_upgrade_test_pip_check` after the look at the requirements. -/
theorem pipCheckTaken_in_section (hc : ∀ c ∈ comps, Component c) (hn : ∀ ks, Host comps n ks) {found : Bool}
    {ks1 ks2 ks3 : List Node} (ht : PipCheckTaken E found ks ks1) (he : Ensured E (fun _ => True) §"python" ks1 ks2)
    (hp : Below §"python" (quiet (Put E §"pip_check" (.bool found))) ks2 ks3 []) :
    InSection comps pos n ks (do
      let cmdPath := Recipe.appendToPath (absPath comps) §"/commands"
      let commands ← valueAt E cmdPath (some (.list []))
      let items ← ask fun _ => pyIter commands
      match findPipCheck items with
      | none => pure ()
      | some i => do
        let _ ← patchAndLog E (removeOp (Recipe.appendToPath cmdPath (§"/" ++ natStr i)))
        if items.length = 1 then
          let _ ← patchAndLog E (removeOp cmdPath)
          let req := Recipe.appendToPath (absPath comps) §"/requirements"
          if ← hasPath req then
            let _ ← patchAndLog E (removeOp req)
      patchAddMissing E (absPath comps) §"/python"
      let _ ← patchAndLog E
        (addOp (Recipe.appendToPath (absPath comps) §"/python/pip_check") (.bool (findPipCheck items).isSome))) () ks3 [] := by
  have h1 : KeyName §"commands" := by decide
  have h2 : KeyName §"requirements" := by decide
  have h3 : KeyName §"python" := by decide
  have h4 : KeyName §"pip_check" := by decide
  have hc' : ∀ x ∈ comps ++ [§"commands"], Component x := by
    intro y hy
    rcases List.mem_append.1 hy with hy | hy
    · exact hc y hy
    · rw [List.mem_singleton.1 hy]; exact h1.1
  have fin : InSection comps pos n ks1 (do
      patchAddMissing E (absPath comps) §"/python"
      let _ ← patchAndLog E (addOp (Recipe.appendToPath (absPath comps) §"/python/pip_check") (.bool found))) () ks3 [] := by
    rw [path_two hc h3.1 h4.1 (Or.inl rfl) (show §"/python/pip_check" = '/' :: §"python" ++ '/' :: §"pip_check" by decide)]
    exact InSection.bind (s1 := []) (ensure_in_section h3 (Or.inl rfl) (Or.inl rfl) hc (he.mono hn))
      (putBelow_in_section h3 h4 (by simp) hn hp).void
  simp only [path_key hc h1.1 (Or.inl rfl) (Or.inl rfl), path_key hc h2.1 (Or.inl rfl) (Or.inl rfl),
    show ∀ i, §"/" ++ natStr i = '/' :: natStr i from fun _ => rfl,
    fun i => path_key hc' (natStr_comp i) (Or.inl rfl) (Or.inl rfl)]
  have rm : ∀ {ks ks' : List Node} {i : Nat}, Below §"commands" (quiet (ElementTaken i)) ks ks' [] →
      InSection comps pos n ks (patchAndLog E (removeOp (absPath (comps ++ [§"commands"] ++ [natStr i])))) true ks' [] := by
    intro ks ks' i h
    cases h with
    | mk e1 e2 e3 e4 =>
      refine InSection.below h1 e1 e2 e3 ?_ (hn _)
      exact InSection.patched (host_named h1 e3 e2.named _) fun c hc => hc.removeElement e4.1
  cases ht with
  | absent ha =>
    refine InSection.bind0 (InSection.valueAbsent h1 ha _) ?_
    refine InSection.bind0 (InSection.askOk (x := []) fun c _ => rfl) ?_
    exact fin
  | @without _ xs hv hx =>
    refine InSection.bind0 (InSection.valueOf h1 hv _) ?_
    refine InSection.bind0 (InSection.askOk (x := xs) fun c _ => rfl) ?_
    rw [findPipCheck_none hx]
    exact fin
  | @one _ _ xs ys x hv hx hpc hl hb =>
    refine InSection.bind0 (InSection.valueOf h1 hv _) ?_
    refine InSection.bind0 (InSection.askOk (x := xs ++ x :: ys) fun c _ => rfl) ?_
    rw [findPipCheck_some hx hpc]
    refine InSection.bind (s1 := []) (rm hb) ?_
    rw [if_neg hl]
    exact fin
  | @only _ k1 k2 _ x hv hpc hb hne hd1 hd2 =>
    refine InSection.bind0 (InSection.valueOf h1 hv _) ?_
    refine InSection.bind0 (InSection.askOk (x := [x]) fun c _ => rfl) ?_
    have := findPipCheck_some (xs := []) (ys := []) (x := x) (by simp) hpc
    rw [List.nil_append] at this
    rw [this]
    refine InSection.bind (s1 := []) (rm hb) ?_
    rw [if_pos (by simp)]
    have r1 : InSection comps pos n k1 (patchAndLog E (removeOp (absPath (comps ++ [§"commands"])))) true k2 [] := by
      cases hd1 with
      | absent ha => exact absurd ha hne
      | gone hf hbv => exact InSection.remove h1 rfl hf hbv (hn _)
    refine InSection.bind (s1 := []) r1 ?_
    cases hd2 with
    | absent ha => exact InSection.bind0 (InSection.noKey h2 ha) fin
    | gone hf hb =>
      refine InSection.bind0 (InSection.key h2 rfl hf) ?_
      exact InSection.bind (s1 := []) (InSection.remove h2 rfl hf hb (hn _)) fin

theorem InSection.ofEq {a a' : Act α} {x : α} {ks' : List Node} {s : List (Category × Str)} (he : ∀ c, a c = a' c)
    (h : InSection comps pos n ks a' x ks' s) : InSection comps pos n ks a x ks' s := by
  intro c hc
  rw [he]
  exact h c hc

theorem Spec.HasBelow.swap {x g y : Str} {a p : List Node} {k k' : Node} (hxg : x ≠ g) (hk : k.value = .str x)
    (hk' : k'.value = .str x) (h : HasBelow g y (a ++ k' :: p)) : HasBelow g y (a ++ k :: p) := by
  obtain ⟨a', m, b', hs, hf, hab⟩ := h
  obtain ⟨a2, b2, hs2, hf2⟩ := first_swap (k := k) hxg hk hk' hs hf
  exact ⟨a2, m, b2, hs2, hf2, hab⟩

theorem Spec.ValueBelow.swap {x g y : Str} {a p : List Node} {k k' : Node} {o : Option PyVal} (hxg : x ≠ g)
    (hk : k.value = .str x) (hk' : k'.value = .str x) (h : ValueBelow E g y (a ++ k' :: p) o) :
    ValueBelow E g y (a ++ k :: p) o := by
  cases h with
  | absent ha => exact .absent fun h => ha (h.swap hxg hk' hk)
  | present hs hf hkey hv =>
    obtain ⟨a2, b2, hs2, hf2⟩ := first_swap (k := k) hxg hk hk' hs hf
    exact .present hs2 hf2 hkey hv

theorem pyEq_str_any (s : Str) (xs : List PyVal) : xs.any (pyEq (.str s)) = decide (.str s ∈ xs) := by
  induction xs with
  | nil => rfl
  | cons a as ih =>
    rw [List.any_cons, ih]
    by_cases h : a = .str s
    · subst h; simp [pyEq]
    · have : pyEq (.str s) a = false := by
        cases a with
        | str t => simp only [pyEq, beq_eq_false_iff_ne]; rintro rfl; exact h rfl
        | _ => rfl
      rw [this]
      simp [List.mem_cons, Ne.symm h]

/-- `_upgrade_test_pip_check` -/
theorem pipCheck_in_package {base : Str} (hb : base = absPath comps ∨ base = absPath comps ++ §"/")
    (hc : ∀ c ∈ comps, Component c) (hh : Host comps n ks) {a b k k' : List Node} {m m0 : Node} {python : Bool}
    (hf : First §"test" a m) (hkey : m.key = true) (hm0 : m0.value = .str §"test")
    (hpy : NeedsPython E (a ++ m0 :: b) python)
    (hp : PipCheckSet E python k k') :
    InSection comps pos n (a ++ { m with children := k } :: b) (upgradePipCheck E base (absPath (comps ++ [§"test"]))) ()
      (a ++ { m with children := k' } :: b) [] := by
  have h1 : KeyName §"requirements" := by decide
  have h2 : KeyName §"host" := by decide
  have h3 : KeyName §"test" := by decide
  have hc' : ∀ x ∈ comps ++ [§"test"], Component x := by
    intro y hy
    rcases List.mem_append.1 hy with hy | hy
    · exact hc y hy
    · rw [List.mem_singleton.1 hy]; exact h3.1
  have hv : ∃ o, ValueBelow E §"requirements" §"host" (a ++ { m with children := k } :: b) o ∧
      pyIn §"python" (o.getD (.list [])) = .ok python := by
    cases hpy with
    | noHost h => exact ⟨_, h.swap (x := §"test") (by decide) (by exact hf.named) hm0, rfl⟩
    | @host xs h =>
      refine ⟨_, h.swap (x := §"test") (by decide) (by exact hf.named) hm0, ?_⟩
      simp only [Option.getD_some, pyIn, pyEq_str_any]
  obtain ⟨o, hv, hin⟩ := hv
  unfold upgradePipCheck
  rw [path_two hc h1.1 h2.1 hb (show §"/requirements/host" = '/' :: §"requirements" ++ '/' :: §"host" by decide)]
  refine InSection.bind0 (InSection.valueBelow h1 h2 hv _) ?_
  refine InSection.bind0 (InSection.askOk (x := python) fun c _ => hin) ?_
  cases hp with
  | no h => subst h; exact InSection.pure ()
  | yes h e1 e2 e3 =>
    subst h
    exact InSection.lift h3 hf hkey hh (pipCheckTaken_in_section hc' (host_named h3 hkey hf.named) e1 e2 e3)

theorem eraseD_filter {d : List (Str × PyVal)} (hd : (d.map (·.1)).Nodup) (k : Str) :
    eraseD k d = d.filter fun e => decide (e.1 ≠ k) := by
  induction d with
  | nil => rfl
  | cons e es ih =>
    obtain ⟨l, w⟩ := e
    rw [List.map_cons, List.nodup_cons] at hd
    by_cases h : l = k
    · subst h
      simp only [eraseD, if_true]
      rw [List.filter_cons_of_neg (by simp), List.filter_eq_self.2]
      intro x hx
      simp only [decide_eq_true_eq]
      rintro rfl
      exact hd.1 (List.mem_map.2 ⟨x, hx, rfl⟩)
    · simp only [eraseD, h, if_false]
      rw [List.filter_cons_of_pos (by simpa using h), ih hd.2]

theorem lookupD_absent {d : List (Str × PyVal)} {k : Str} (h : lookupD k d = none) : ∀ e ∈ d, e.1 ≠ k := by
  induction d with
  | nil => intro e he; cases he
  | cons e es ih =>
    obtain ⟨l, w⟩ := e
    simp only [lookupD] at h
    split at h
    · cases h
    · rename_i hl
      intro x hx
      rcases List.mem_cons.1 hx with rfl | hx
      · exact hl
      · exact ih h x hx

theorem lookupD_filter_ne {d : List (Str × PyVal)} {k j : Str} (hkj : k ≠ j) :
    lookupD k (d.filter fun e => decide (e.1 ≠ j)) = lookupD k d := by
  induction d with
  | nil => rfl
  | cons e es ih =>
    obtain ⟨l, w⟩ := e
    by_cases h : l = j
    · subst h
      rw [List.filter_cons_of_neg (by simp), ih]
      simp [lookupD, Ne.symm hkj]
    · rw [List.filter_cons_of_pos (by simpa using h)]
      simp only [lookupD, ih]

theorem splitTest_dict {d : List (Str × PyVal)} (hd : (d.map (·.1)).Nodup) (k : Str) :
    splitTest k (.dict d) = .ok ((match lookupD k d with | some v => [.dict [(k, v)]] | none => []),
      .dict (d.filter fun e => decide (e.1 ≠ k))) := by
  unfold splitTest
  simp only [pyIn, Bind.bind, Except.bind]
  cases h : lookupD k d with
  | none =>
    simp only [Option.isSome_none, Bool.false_eq_true, if_false]
    rw [List.filter_eq_self.2]
    intro x hx
    simpa using lookupD_absent h x hx
  | some v =>
    simp only [Option.isSome_some, if_true]
    rw [eraseD_filter hd]

theorem testArray_dict {d : List (Str × PyVal)} (hd : (d.map (·.1)).Nodup) : testArray (.dict d) = .ok (testList d) := by
  unfold testArray testList
  have hd' : ((d.filter fun e => decide (e.1 ≠ §"python")).map (·.1)).Nodup := by
    exact List.Nodup.sublist (List.Sublist.map _ (List.filter_sublist)) hd
  simp only [splitTest_dict hd, Bind.bind, Except.bind]
  rw [splitTest_dict hd']
  rw [lookupD_filter_ne (by decide), List.filter_filter]
  have he : (d.filter fun e => decide (e.1 ≠ §"downstream") && decide (e.1 ≠ §"python")) =
      d.filter fun e => decide (e.1 ≠ §"python" ∧ e.1 ≠ §"downstream") := by
    congr 1
    funext e
    rw [Bool.decide_and, Bool.and_comm]
  simp only [he]
  congr 2
  cases d.filter fun e => decide (e.1 ≠ §"python" ∧ e.1 ≠ §"downstream") with
  | nil => rfl
  | cons e es => rfl

theorem act_if (h : Act Bool) (A B : Act Unit) (K : Act α) :
    (do if ← h then A
        B
        K : Act α) = (do
      (do
        if ← h then A
        B
        Pure.pure ())
      K) := by
  funext c
  simp only [Bind.bind, Act.bind]
  rcases h c with ⟨_ | b, c1⟩
  · rfl
  cases b
  · simp only [Bool.false_eq_true, if_false, Act.bind]
    rcases B c1 with ⟨_ | _, c2⟩ <;> rfl
  · simp only [if_true, Act.bind]
    rcases A c1 with ⟨_ | _, c2⟩
    · rfl
    simp only [Act.bind]
    rcases B c2 with ⟨_ | _, c3⟩ <;> rfl

theorem act_if' (h : Act Bool) (A B : Act Unit) (K : Act α) :
    (do if ← h then
          A
          B
        K : Act α) = (do
      (do
        if ← h then
          A
          B
        Pure.pure ())
      K) := by
  funext c
  simp only [Bind.bind, Act.bind]
  rcases h c with ⟨_ | b, c1⟩
  · rfl
  cases b
  · rfl
  · simp only [if_true, Act.bind]
    rcases A c1 with ⟨_ | _, c2⟩
    · rfl
    simp only [Act.bind]
    rcases B c2 with ⟨_ | _, c3⟩ <;> rfl

theorem act_congr {x : Act α} {f g : α → Act β} (h : ∀ a, f a = g a) : (x >>= f) = (x >>= g) := by
  rw [funext h]

theorem pythonSort_in_section (hc : ∀ c ∈ comps, Component c) (hn : ∀ ks, Host comps n ks) {ks' : List Node}
    (h : InKey §"python" (quiet (Ordered [§"imports", §"pip_check"])) ks ks' []) :
    InSection comps pos n ks (sortKeys (Recipe.appendToPath (absPath comps) §"/python") pythonTestOrder) () ks' [] := by
  have h3 : KeyName §"python" := by decide
  rw [path_key hc h3.1 (Or.inl rfl) (Or.inl rfl)]
  refine InSection.inKey h3 (hn ks) h ?_ ?_
  · intro ha c hcs
    have := C32_sort_subtree c.v1 pythonTestOrder (comps ++ [§"python"]) (hcs.keyPath h3) (by simp)
    rw [hcs.locateAbsent h3 ha] at this
    refine ⟨c, ?_, .refl hcs, hcs⟩
    simp only [sortKeys, edit, this]
  · intro a m b cs s hk hf hkey hr
    obtain ⟨hr, rfl⟩ := hr
    exact sort_in_section (by decide) (by decide) (by decide) (by simp) hr (host_named h3 hkey hf.named _)

theorem tests_in_package {base : Str} (hb : base = absPath comps ∨ base = absPath comps ++ §"/")
    (hc : ∀ c ∈ comps, Component c) (hh : Host comps n ks) {ks' : List Node} (h : TestsUpgraded E ks ks') :
    InSection comps pos n ks (upgradeTests E [base]) () ks' [] := by
  have h1 : KeyName §"test" := by decide
  have h2 : KeyName §"tests" := by decide
  have h3 : KeyName §"python" := by decide
  have hc' : ∀ x ∈ comps ++ [§"test"], Component x := by
    intro y hy
    rcases List.mem_append.1 hy with hy | hy
    · exact hc y hy
    · rw [List.mem_singleton.1 hy]; exact h1.1
  have hs : absPath (comps ++ [§"test"]) ++ §"s" = absPath (comps ++ [§"tests"]) := by simp [absPath]
  refine InSection.each_one ?_
  simp only [path_key hc h1.1 hb (Or.inl rfl)]
  rw [hs]
  cases h with
  | absent ha => exact InSection.bind0 (InSection.noKey h1 ha) (InSection.pure ())
  | @moved a b cs ks2 _ m python d hk hf hkey hpy hu hv hd hput hab hdrop hne =>
    refine InSection.bind0 (InSection.key h1 hk hf) ?_
    obtain ⟨k1, k2, k3, k4, k5, k6, e1, e2, e3, e4, e5, e6, e7⟩ := hu
    have hn := host_named (comps := comps) h1 hkey hf.named
    have up : ∀ {k k' : List Node} {act : Act Unit}, InSection (comps ++ [§"test"]) (pos ++ [a.length]) m k act () k' [] →
        InSection comps pos n (a ++ { m with children := k } :: b) act () (a ++ { m with children := k' } :: b) [] := fun h =>
      InSection.lift h1 hf hkey hh h
    refine InSection.bind (s1 := []) (InSection.below h1 hk hf hkey (files_in_section hc' hn e1) (hh.keep (by simp))) ?_
    rw [hk] at hpy
    refine InSection.ofEq (a' := do
      (do
        if ← hasPath (Recipe.appendToPath (absPath (comps ++ [§"test"])) §"/requires") then
          patchAddMissing E (absPath (comps ++ [§"test"])) §"/requirements"
        patchMoveBase E (absPath (comps ++ [§"test"])) §"/requires" §"/requirements/run"
        pure ())
      upgradePipCheck E base (absPath (comps ++ [§"test"]))
      patchMoveBase E (absPath (comps ++ [§"test"])) §"/commands" §"/script"
      (do
        if ← hasPath (Recipe.appendToPath (absPath (comps ++ [§"test"])) §"/imports") then
          patchAddMissing E (absPath (comps ++ [§"test"])) §"/python"
          patchMoveBase E (absPath (comps ++ [§"test"])) §"/imports" §"/python/imports"
        pure ())
      patchMoveBase E (absPath (comps ++ [§"test"])) §"/downstreams" §"/downstream"
      sortKeys (Recipe.appendToPath (absPath (comps ++ [§"test"])) §"/python") pythonTestOrder
      let elem ← valueAt E (absPath (comps ++ [§"test"]))
      let arr ← ask fun _ => testArray elem
      let _ ← patchAndLog E (addOp (absPath (comps ++ [§"tests"])) (.list arr))
      let _ ← patchAndLog E (removeOp (absPath (comps ++ [§"test"])))) ?_ ?_
    · intro c
      refine congrFun (Eq.trans (act_if _ _ _ _) ?_) c
      refine act_congr fun _ => act_congr fun _ => act_congr fun _ => act_if' _ _ _ _
    refine InSection.bind (s1 := []) (up (requires_in_section hc' hn e2 (InSection.pure ()))) ?_
    refine InSection.bind (s1 := []) (pipCheck_in_package hb hc hh hf hkey hf.named hpy e3) ?_
    refine InSection.bind (s1 := []) (up (rename_in_section (old := §"commands") (new := §"script") (by decide) (by decide)
      (by decide) (Or.inl rfl) (Or.inl rfl) (Or.inl rfl) (e4.mono hn) hc')) ?_
    refine InSection.bind (s1 := []) (up (imports_in_section hc' hn e5 (InSection.pure ()))) ?_
    refine InSection.bind (s1 := []) (up (rename_in_section (old := §"downstreams") (new := §"downstream") (by decide) (by decide)
      (by decide) (Or.inl rfl) (Or.inl rfl) (Or.inl rfl) (e6.mono hn) hc')) ?_
    refine InSection.bind (s1 := []) (up (pythonSort_in_section hc' hn e7)) ?_
    refine InSection.bind0 (InSection.value (k := { m with children := cs }) h1 rfl ⟨hf.named, hf.first⟩ hv _) ?_
    refine InSection.bind0 (InSection.askOk fun _ _ => testArray_dict hd) ?_
    have hne2 : ks2 ≠ [] := by
      cases hput with
      | append ha _ => simp
      | into _ _ _ _ => simp
    refine InSection.bind (s1 := []) (InSection.patched (hh.keep hne2) fun c hc => hc.put E h2 (by simp) hput) ?_
    cases hdrop with
    | absent ha => exact absurd ha hab
    | gone hfd hbv => exact (InSection.remove h1 rfl hfd hbv (hh.keep hne)).void

/-! ## The other methods at the level of the package -/

theorem guarded_in_section {a : Act Unit} {ks' : List Node} {says : List (Category × Str)} (hne : comps ≠ [])
    (h : InSection comps pos n ks a () ks' says) :
    InSection comps pos n ks (do if ← hasPath (absPath comps) then a) () ks' says :=
  InSection.bind0 (f := fun b => if b = true then a else Pure.pure ())
    (InSection.askOk (f := (·.containsValue (absPath comps))) (x := true) fun c hc => by
      unfold Recipe.containsValue
      simp only [strToStack_absPath comps hne hc.path, Bind.bind, Except.bind, traverse_locate, hc.place]
      rfl)
    (InSection.ite_true rfl h)

theorem snoc_components {x : Str} (hc : ∀ c ∈ comps, Component c) (hx : KeyName x) : ∀ y ∈ comps ++ [x], Component y := by
  intro y hy
  rcases List.mem_append.1 hy with hy | hy
  · exact hc y hy
  · rw [List.mem_singleton.1 hy]; exact hx.1

theorem spelling_in_package {base : Str} (hb : base = absPath comps ∨ base = absPath comps ++ §"/")
    (hc : ∀ c ∈ comps, Component c) (hh : Host comps n ks) {ks' : List Node} (h : SpellingCorrected E ks ks') :
    InSection comps pos n ks (correctMisspellings E [base]) () ks' [] := by
  obtain ⟨k1, h1, h2⟩ := h
  have hk : KeyName §"build" := by decide
  have hc' := snoc_components hc hk
  refine InSection.each_one ?_
  simp only [path_key hc hk.1 hb (Or.inl rfl)]
  have fin : ∀ {k1 : List Node}, Renamed E (· ≠ []) §"extras" §"extra" k1 ks' →
      InSection comps pos n k1 (patchMoveBase E base §"extras" §"extra") () ks' [] := fun h2 =>
    rename_in_section (old := §"extras") (new := §"extra") (by decide) (by decide) (by decide) hb (Or.inr rfl) (Or.inr rfl)
      (h2.weaken fun _ h => hh.keep h) hc
  cases h1 with
  | absent ha =>
    have hno : ∀ {x : Str} (y : Str), KeyName x →
        InSection comps pos n ks (patchMoveBase E (absPath (comps ++ [§"build"])) x y) () ks [] := by
      intro x y hx
      unfold patchMoveBase
      rw [path_key hc' hx.1 (Or.inl rfl) (Or.inr rfl)]
      refine InSection.bind0 (InSection.notBelow hk hx ?_) (InSection.pure ())
      rintro ⟨a, m, b, rfl, hf, _⟩
      exact ha m (by simp) hf.named
    refine InSection.bind0 (hno §"skip" (by decide)) ?_
    refine InSection.bind0 (hno §"skip" (by decide)) ?_
    refine InSection.bind0 (hno §"skip" (by decide)) (fin h2)
  | present h1 =>
    cases h1 with
    | @mk _ a b cs m _ e1 e2 e3 e4 =>
      have hn := host_named (comps := comps) hk e3 e2.named
      obtain ⟨e4, _⟩ := e4
      have rn : ∀ {k k' : List Node} {x : Str}, KeyName x → x ≠ §"skip" → Renamed E (fun _ => True) x §"skip" k k' →
          InSection (comps ++ [§"build"]) (pos ++ [a.length]) m k
            (patchMoveBase E (absPath (comps ++ [§"build"])) x §"skip") () k' [] := fun hx hne h =>
        rename_in_section hx (by decide) hne (Or.inl rfl) (Or.inr rfl) (Or.inr rfl) (h.mono hn) hc'
      cases e4 with
      | cons g1 e4 => cases e4 with
        | cons g2 e4 => cases e4 with
          | cons g3 e4 =>
            cases e4
            refine InSection.bind (s1 := []) (InSection.below hk e1 e2 e3 (rn (by decide) (by decide) g1) (hh.keep (by simp))) ?_
            refine InSection.bind (s1 := []) (InSection.lift hk e2 e3 hh (rn (by decide) (by decide) g2)) ?_
            exact InSection.bind (s1 := []) (InSection.lift hk e2 e3 hh (rn (by decide) (by decide) g3)) (fin h2)

theorem buildMoved_in_package {base : Str} (hb : base = absPath comps ∨ base = absPath comps ++ §"/")
    (hc : ∀ c ∈ comps, Component c) (hh : Host comps n ks) {ks' : List Node} {says : List (Category × Str)}
    (h : BuildMoved E comps ks ks' says) : InSection comps pos n ks (upgradeBuild E [base]) () ks' says := by
  obtain ⟨k1, k2, h1, h2, h3⟩ := h
  have hk : KeyName §"build" := by decide
  have hc' := snoc_components hc hk
  have keep : ∀ {k k' : List Node} {f : Str}, MovedAcross E f k k' → Host comps n k → Host comps n k' := by
    intro k k' f h hh
    cases h with
    | absent _ => exact hh
    | moved _ _ _ h4 => cases h4; exact hh.keep (by simp)
  have hh1 := keep h1 hh
  have hh2 := keep h2 hh1
  refine InSection.each_one ?_
  simp only [path_key hc hk.1 hb (Or.inl rfl)]
  refine InSection.bind (s1 := []) (across_in_section (by decide) hb hc hh h1) ?_
  refine InSection.bind (s1 := []) (across_in_section (by decide) hb hc hh1 h2) ?_
  refine InSection.inKey hk hh2 h3 (fun ha => InSection.bind0 (InSection.noKey hk ha) (InSection.pure ())) ?_
  intro a m b cs s e1 e2 e3 hu
  have hn := host_named (comps := comps) hk e3 e2.named
  refine guarded_in_section (by simp) (build_in_section hc' hn (by simp) ?_)
  obtain ⟨k1, k2, k3, k4, k5, k6, k7, k8, k9, s, e1, e2, e3, e4, e5, e6, e7, e8, e9, e10⟩ := hu.steps
  refine ⟨k1, k2, k3, k4, k5, k6, k7, k8, k9, s, e1.mono hn, e2.mono hn, e3.mono hn, e4.mono hn, e5.mono hn, e6.mono hn,
    e7.mono hn, e8.mono hn, ?_, e10⟩
  cases e9 with
  | absent ha => exact .absent ha
  | empty ha hb => exact .empty ha hb
  | moved a1 a2 a3 a4 a5 _ a7 a8 _ => exact .moved a1 a2 a3 a4 a5 (hn _) a7 a8 (hn _)

theorem requirements_in_package {base : Str} (hb : base = absPath comps ∨ base = absPath comps ++ §"/")
    (hc : ∀ c ∈ comps, Component c) (hh : Host comps n ks) {ks' : List Node}
    (h : InKey §"requirements" (quiet (Renamed E (fun _ => True) §"run_constrained" §"run_constraints")) ks ks' []) :
    InSection comps pos n ks (upgradeRequirements E [base]) () ks' [] := by
  have hk : KeyName §"requirements" := by decide
  have hc' := snoc_components hc hk
  refine InSection.each_one ?_
  simp only [path_key hc hk.1 hb (Or.inl rfl)]
  refine InSection.inKey hk hh h (fun ha => InSection.bind0 (InSection.noKey hk ha) (InSection.pure ())) ?_
  intro a m b cs s e1 e2 e3 hu
  obtain ⟨hu, rfl⟩ := hu
  exact guarded_in_section (by simp) (rename_in_section (old := §"run_constrained") (new := §"run_constraints") (by decide)
    (by decide) (by decide) (Or.inl rfl) (Or.inl rfl) (Or.inl rfl) (hu.mono (host_named hk e3 e2.named)) hc')

theorem about_in_package {W : ConvWorld} {base : Str} (hb : base = absPath comps ∨ base = absPath comps ++ §"/")
    (hc : ∀ c ∈ comps, Component c) (hh : Host comps n ks) {ks' : List Node} {says : List (Category × Str)}
    (h : InKey §"about" (AboutUpgraded E (findLicense W.close W.db) (fun _ => True) (comps ++ [§"about"])) ks ks' says) :
    InSection comps pos n ks (upgradeAbout E W [base]) () ks' says := by
  have hk : KeyName §"about" := by decide
  have hc' := snoc_components hc hk
  refine InSection.each_one ?_
  simp only [path_key hc hk.1 hb (Or.inl rfl)]
  refine InSection.inKey hk hh h (fun ha => InSection.bind0 (InSection.noKey hk ha) (InSection.pure ())) ?_
  intro a m b cs s e1 e2 e3 hu
  have hn := host_named (comps := comps) hk e3 e2.named
  refine guarded_in_section (by simp) (about_in_section hc' hn ?_)
  obtain ⟨k1, k2, k3, s, h1, h2⟩ := hu.steps
  exact ⟨k1, k2, k3, s, h1.mono hn, h2⟩

end

end Crm

import Verif.Spec.ConvFrame
import Verif.Lemmas.ConvSection

/-! # Lemmas: what the steps of a conversion leave alone -/

namespace Crm
open Spec

theorem firstKey_iff {x : Str} {ks : List Node} {m : Node} :
    firstKey x ks = some m ↔ ∃ a b, ks = a ++ m :: b ∧ First x a m := by
  unfold firstKey
  rw [List.find?_eq_some_iff_append]
  constructor
  · rintro ⟨h, a, b, rfl, ha⟩
    exact ⟨a, b, rfl, by simpa using h, fun y hy => by simpa using ha y hy⟩
  · rintro ⟨a, b, rfl, h, ha⟩
    exact ⟨by simpa using h, a, b, rfl, fun y hy => by simpa using ha y hy⟩

theorem firstKey_value {x : Str} {ks : List Node} {m : Node} (h : firstKey x ks = some m) : m.value = .str x := by
  obtain ⟨a, b, _, h⟩ := firstKey_iff.1 h
  exact h.named

theorem firstKey_none {x : Str} {ks : List Node} : firstKey x ks = none ↔ Absent x ks := by
  unfold firstKey Absent
  rw [List.find?_eq_none]
  simp

/-- Children with other names do not matter. -/
theorem firstKey_append {x : Str} (a b : List Node) : firstKey x (a ++ b) = (firstKey x a).or (firstKey x b) := by
  unfold firstKey
  rw [List.find?_append]

theorem firstKey_cons_ne {x : Str} {k : Node} (h : k.value ≠ .str x) (b : List Node) : firstKey x (k :: b) = firstKey x b := by
  unfold firstKey
  rw [List.find?_cons_of_neg (by simpa using h)]

theorem firstKey_mid {x : Str} {k : Node} (h : k.value ≠ .str x) (a b : List Node) : firstKey x (a ++ k :: b) = firstKey x (a ++ b) := by
  rw [firstKey_append, firstKey_append, firstKey_cons_ne h]

theorem Spec.Stays.refl (l : List Str) (ks : List Node) : Stays l ks ks := fun _ _ _ h => h

theorem Spec.Stays.trans {l : List Str} {a b c : List Node} (h : Stays l a b) (h' : Stays l b c) : Stays l a c :=
  fun x hx m hm => h' x hx m (h x hx m hm)

theorem Spec.Stays.mono {l l' : List Str} {a b : List Node} (h : Stays l a b) (hl : ∀ x ∈ l, x ∈ l') : Stays l' a b :=
  fun x hx m hm => h x (fun hx' => hx (hl x hx')) m hm

theorem Spec.Stays.below {l : List Str} {a b : List Node} (h : Stays l a b) {g : Str} (hg : g ∉ l) {Q : List Node → List Node → Prop}
    (hQ : ∀ cs, Q cs cs) : StaysBelow g Q a b := fun m hm => ⟨m.children, by cases m; exact h g hg _ hm, hQ _⟩

theorem Spec.StaysBelow.refl {g : Str} {Q : List Node → List Node → Prop} (hQ : ∀ cs, Q cs cs) (a : List Node) : StaysBelow g Q a a :=
  fun m hm => ⟨m.children, by cases m; exact hm, hQ _⟩

theorem Spec.StaysBelow.comp {g : Str} {Q Q' Q'' : List Node → List Node → Prop} {a b c : List Node}
    (h : StaysBelow g Q a b) (h' : StaysBelow g Q' b c) (hQ : ∀ x y z, Q x y → Q' y z → Q'' x z) : StaysBelow g Q'' a c := by
  intro m hm
  obtain ⟨cs, h1, h2⟩ := h m hm
  obtain ⟨ds, h3, h4⟩ := h' _ h1
  exact ⟨ds, h3, hQ _ _ _ h2 h4⟩

theorem Spec.StaysBelow.trans {g : Str} {l : List Str} {a b c : List Node} (h : StaysBelow g (Stays l) a b)
    (h' : StaysBelow g (Stays l) b c) : StaysBelow g (Stays l) a c := h.comp h' fun _ _ _ => Stays.trans

theorem Spec.StaysBelow.mono {g : Str} {Q Q' : List Node → List Node → Prop} {a b : List Node}
    (h : StaysBelow g Q a b) (hQ : ∀ x y, Q x y → Q' x y) : StaysBelow g Q' a b := by
  intro m hm
  obtain ⟨cs, h1, h2⟩ := h m hm
  exact ⟨cs, h1, hQ _ _ h2⟩

/-- One child makes way for another of the same name. -/
theorem stays_set {name : Str} {a b : List Node} {m m' : Node} (h : m.value = .str name) (h' : m'.value = .str name) :
    Stays [name] (a ++ m :: b) (a ++ m' :: b) := by
  intro x hx k hk
  have hn : ∀ {n : Node}, n.value = .str name → n.value ≠ .str x := by
    intro n hn he
    rw [hn] at he
    injection he with he
    exact hx (by simp [he])
  rw [firstKey_mid (hn h')]
  rwa [firstKey_mid (hn h)] at hk

theorem stays_drop {name : Str} {a b : List Node} {m : Node} (h : m.value = .str name) : Stays [name] (a ++ m :: b) (a ++ b) := by
  intro x hx k hk
  rwa [firstKey_mid] at hk
  intro he
  rw [h] at he
  injection he with he
  exact hx (by simp [he])

theorem stays_append (a b : List Node) : Stays [] a (a ++ b) := by
  intro x _ m hm
  rw [firstKey_append, hm]
  rfl

theorem Spec.Put.stays {E : Env} {name : Str} {v : PyVal} {ks ks' : List Node} (h : Put E name v ks ks') : Stays [name] ks ks' := by
  cases h with
  | append _ _ => exact (stays_append _ _).mono (by simp)
  | into hk hf _ _ =>
    subst hk
    exact stays_set hf.named hf.named

theorem Spec.Taken.stays {E : Env} {name : Str} {v : PyVal} {ks ks' : List Node} (h : Taken E name v ks ks') : Stays [name] ks ks' := by
  cases h with
  | mk hk hf _ _ _ =>
    subst hk
    exact stays_drop hf.named

theorem Spec.Dropped.stays {name : Str} {ks ks' : List Node} (h : Dropped name ks ks') : Stays [name] ks ks' := by
  cases h with
  | absent _ => exact Stays.refl _ _
  | gone hf _ => exact stays_drop hf.named

theorem Spec.Renamed.stays {E : Env} {ok : List Node → Prop} {old new : Str} {ks ks' : List Node} (h : Renamed E ok old new ks ks') :
    Stays [old, new] ks ks' := by
  cases h with
  | absent _ => exact Stays.refl _ _
  | moved ht hp _ _ => exact (ht.stays.mono (by simp)).trans (hp.stays.mono (by simp))

theorem Spec.RenamedAll.stays {E : Env} {ok : List Node → Prop} {os : List (Str × Str)} {ks ks' : List Node} (h : RenamedAll E ok os ks ks') :
    Stays (os.flatMap fun o => [o.1, o.2]) ks ks' := by
  induction h with
  | nil ks => exact Stays.refl _ _
  | cons h1 _ ih =>
    refine (h1.stays.mono ?_).trans (ih.mono ?_)
    · intro x hx; simp only [List.flatMap_cons, List.mem_append]; exact .inl hx
    · intro x hx; simp only [List.flatMap_cons, List.mem_append]; exact .inr hx

theorem Spec.Ensured.stays {E : Env} {ok : List Node → Prop} {name : Str} {ks ks' : List Node} (h : Ensured E ok name ks ks') :
    Stays [] ks ks' := by
  cases h with
  | there _ => exact Stays.refl _ _
  | added ha hp _ =>
    cases hp with
    | append _ _ => exact stays_append _ _
    | into hk hf _ _ => subst hk; exact absurd hf.named (ha _ (by simp))

theorem Spec.Below.stays {name : Str} {R : Step} {ks ks' : List Node} {says : List (Category × Str)} (h : Below name R ks ks' says) :
    Stays [name] ks ks' := by
  cases h with
  | mk hk hf _ _ => subst hk; exact stays_set hf.named hf.named

theorem Spec.Below.below {name : Str} {R : Step} {ks ks' : List Node} {says : List (Category × Str)} (h : Below name R ks ks' says)
    {Q : List Node → List Node → Prop} (hQ : ∀ {x y s}, R x y s → Q x y) : StaysBelow name Q ks ks' := by
  cases h with
  | mk hk hf _ hr =>
    subst hk
    intro k hk
    rw [firstKey_iff.2 ⟨_, _, rfl, hf⟩] at hk
    injection hk with hk
    subst hk
    exact ⟨_, firstKey_iff.2 ⟨_, _, rfl, hf.named, hf.first⟩, hQ hr⟩

theorem Spec.InKey.stays {name : Str} {R : Step} {ks ks' : List Node} {says : List (Category × Str)} (h : InKey name R ks ks' says) :
    Stays [name] ks ks' := by
  cases h with
  | absent _ => exact Stays.refl _ _
  | present h => exact h.stays

theorem Spec.InKey.below {name : Str} {R : Step} {ks ks' : List Node} {says : List (Category × Str)} (h : InKey name R ks ks' says)
    {Q : List Node → List Node → Prop} (hQ : ∀ {x y s}, R x y s → Q x y) : StaysBelow name Q ks ks' := by
  cases h with
  | absent ha => intro m hm; rw [firstKey_none.2 ha] at hm; cases hm
  | present h => exact h.below hQ

theorem Spec.MovedInto.stays {E : Env} {old group new : Str} {ks ks' : List Node} (h : MovedInto E old group new ks ks') :
    Stays [old, group] ks ks' := by
  cases h with
  | absent _ => exact Stays.refl _ _
  | moved ht hb => exact (ht.stays.mono (by simp)).trans (hb.stays.mono (by simp))

theorem Spec.MovedBelow.stays {E : Env} {ok : List Node → Prop} {old group new : Str} {ks ks' : List Node}
    (h : MovedBelow E ok old group new ks ks') : Stays [old, group] ks ks' := by
  cases h with
  | absent _ => exact Stays.refl _ _
  | moved _ he ht hf _ _ _ _ =>
    exact (he.stays.mono (by simp)).trans ((ht.stays.mono (by simp)).trans
      (Stays.mono (l := [group]) (stays_set hf.named hf.named) (by simp)))

theorem dropFields_stays : ∀ (fs : List Str) (ks : List Node), Stays fs ks (dropFields fs ks).1
  | [], ks => Stays.refl _ _
  | f :: fs, ks => by
    unfold dropFields
    split
    · exact (dropFields_stays fs ks).mono (by simp +contextual)
    · rename_i h
      refine Stays.trans (b := without f ks) ?_ ((dropFields_stays fs _).mono (by simp +contextual))
      obtain ha | ⟨pre, k, post, rfl, hf⟩ := absent_or_first f ks
      · exact absurd ha h
      · rw [without_first hf]
        exact (stays_drop hf.named).mono (by simp)

theorem filter_named {x : Str} {names : List Str} (l : List Node) :
    l.filter (fun k => decide (k.value = .str x)) =
      (l.filter fun k => decide (placeIn names k = (names.idxOf x : Nat))).filter fun k => decide (k.value = .str x) := by
  rw [List.filter_filter]
  apply List.filter_congr
  intro k _
  by_cases h : k.value = .str x
  · have hc : k.isComment = false := by
      unfold Node.isComment Node.isSentinel
      rw [h]
      rfl
    simp [h, placeIn, hc]
  · simp [h]

theorem Spec.Ordered.stays {names : List Str} {ks ks' : List Node} (h : Ordered names ks ks') : Stays [] ks ks' := by
  intro x _ m hm
  unfold firstKey at *
  rw [← List.head?_filter] at *
  rw [filter_named (names := names), h.stable, ← filter_named]
  exact hm

/-! ## Sections -/

theorem Spec.LicenceFixed.stays {E : Env} {recognised : Str → Option Str} {comps : List Str} {ks ks' : List Node}
    {says : List (Category × Str)} (h : LicenceFixed E recognised comps ks ks' says) : Stays [§"license"] ks ks' := by
  cases h with
  | missing _ => exact Stays.refl _ _
  | empty _ _ _ => exact Stays.refl _ _
  | unknown _ _ _ _ => exact Stays.refl _ _
  | correct _ _ _ _ => exact Stays.refl _ _
  | corrected hk hf _ _ _ _ _ => subst hk; exact stays_set hf.named hf.named

theorem Spec.SummaryJoined.stays {E : Env} {ks ks' : List Node} (h : SummaryJoined E ks ks') : Stays [§"summary"] ks ks' := by
  cases h with
  | none _ => exact Stays.refl _ _
  | one _ _ _ _ => exact Stays.refl _ _
  | several hk hf _ _ _ => subst hk; exact stays_set hf.named hf.named

theorem Spec.AboutUpgraded.stays {E : Env} {recognised : Str → Option Str} {ok : List Node → Prop} {comps : List Str}
    {ks ks' : List Node} {says : List (Category × Str)} (h : AboutUpgraded E recognised ok comps ks ks' says) :
    Stays changedInAbout ks ks' := by
  obtain ⟨ks1, ks2, ks3, s, h1, h2, h3, _, rfl, _⟩ := h.steps
  exact (h1.stays.mono (by decide)).trans ((h2.stays.mono (by decide)).trans ((h3.stays.mono (by decide)).trans
    ((dropFields_stays _ _).mono (by decide))))

theorem Spec.ScriptEnvMoved.stays {E : Env} {ok : List Node → Prop} {comps : List Str} {ks ks' : List Node}
    {says : List (Category × Str)} (h : ScriptEnvMoved E ok comps ks ks' says) : Stays [§"script_env", §"script"] ks ks' := by
  cases h with
  | absent _ => exact Stays.refl _ _
  | empty _ _ => exact Stays.refl _ _
  | moved _ _ _ _ hp _ hf _ _ => exact (hp.stays.mono (by simp)).trans (Stays.mono (l := [§"script_env"]) (stays_drop hf.named) (by simp))

theorem Spec.BuildUpgraded.stays {E : Env} {ok : List Node → Prop} {comps : List Str} {ks ks' : List Node}
    {says : List (Category × Str)} (h : BuildUpgraded E ok comps ks ks' says) : Stays changedInBuild ks ks' := by
  obtain ⟨k1, k2, k3, k4, k5, k6, k7, k8, k9, s, h1, h2, h3, h4, h5, h6, h7, h8, h9, _, h10, _⟩ := h.steps
  exact (h1.stays.mono (by decide)).trans <| (h2.stays.mono (by decide)).trans <| (h3.stays.mono (by decide)).trans <|
    (h4.stays.mono (by decide)).trans <| (h5.stays.mono (by decide)).trans <| (h6.stays.mono (by decide)).trans <|
    (h7.stays.mono (by decide)).trans <| (h8.stays.mono (by decide)).trans <| (h9.stays.mono (by decide)).trans <|
    ((dropFields_stays _ _).mono (by decide)).trans (Ordered.stays h10 |>.mono (by simp))

theorem Spec.SourceUpgraded.stays {E : Env} {ok : List Node → Prop} {ks ks' : List Node} {says : List (Category × Str)}
    (h : SourceUpgraded E ok ks ks' says) : Stays changedInSource ks ks' := by
  obtain ⟨ks1, h1, h2, _⟩ := h.steps
  exact (h1.stays.mono (by decide)).trans (Ordered.stays h2 |>.mono (by simp))

theorem Spec.SourcesUpgraded.stays {E : Env} {ks ks' : List Node} {says : List (Category × Str)} (h : SourcesUpgraded E ks ks' says) :
    Stays [§"source"] ks ks' := by
  cases h with
  | absent _ => exact Stays.refl _ _
  | single hk hf _ _ _ _ => subst hk; exact stays_set hf.named hf.named
  | several hk hf _ _ _ => subst hk; exact stays_set hf.named hf.named

theorem Spec.TestsUpgraded.stays {E : Env} {ks ks' : List Node} (h : TestsUpgraded E ks ks') : Stays [§"test", §"tests"] ks ks' := by
  cases h with
  | absent _ => exact Stays.refl _ _
  | moved hk hf _ _ _ _ _ hp _ hd _ =>
    subst hk
    have e1 := (hp.stays.mono (l' := [§"test", §"tests"]) (by simp)).trans (hd.stays.mono (by simp))
    refine Stays.trans (Stays.mono (l := [§"test"]) (stays_set hf.named ?_) (by simp)) e1
    exact hf.named

theorem Spec.MovedAcross.stays {E : Env} {f : Str} {ks ks' : List Node} (h : MovedAcross E f ks ks') :
    Stays [§"build", §"requirements"] ks ks' := by
  cases h with
  | absent _ => exact Stays.refl _ _
  | moved _ h1 h2 h3 => exact (h1.stays.mono (by simp)).trans ((h2.stays.mono (by simp)).trans (h3.stays.mono (by simp)))

theorem Spec.MovedAcross.build {E : Env} {f : Str} {ks ks' : List Node} (h : MovedAcross E f ks ks') :
    StaysBelow §"build" (Stays [f]) ks ks' := by
  cases h with
  | absent _ => exact StaysBelow.refl (Stays.refl _) _
  | moved _ h1 h2 h3 =>
    have e1 : StaysBelow §"build" (Stays [f]) _ _ := h1.stays.below (by simp) (Stays.refl _)
    have e2 : StaysBelow §"build" (Stays [f]) _ _ := h2.below fun hr => hr.1.stays
    have e3 : StaysBelow §"build" (Stays [f]) _ _ := h3.stays.below (by decide) (Stays.refl _)
    exact e1.trans (e2.trans e3)

theorem Spec.MovedAcross.requirements {E : Env} {f : Str} {ks ks' : List Node} (h : MovedAcross E f ks ks') :
    StaysBelow §"requirements" (Stays [f]) ks ks' := by
  cases h with
  | absent _ => exact StaysBelow.refl (Stays.refl _) _
  | moved _ h1 h2 h3 =>
    have e1 : StaysBelow §"requirements" (Stays [f]) _ _ := h1.stays.below (by simp) (Stays.refl _)
    have e2 : StaysBelow §"requirements" (Stays [f]) _ _ := h2.stays.below (by decide) (Stays.refl _)
    have e3 : StaysBelow §"requirements" (Stays [f]) _ _ := h3.below fun hr => hr.1.stays
    exact e1.trans (e2.trans e3)

/-! ## Elements of lists -/

theorem elementAt_mid {a b : List Node} {m : Node} (h : real m = true) (hl : m.listMember = true) (j : Nat) :
    elementAt j (a ++ m :: b) = if j = realCount a then some m else
      if j < realCount a then ((a.filter real)[j]?).filter (·.listMember)
      else ((b.filter real)[j - realCount a - 1]?).filter (·.listMember) := by
  unfold elementAt realCount
  rw [List.filter_append, List.filter_cons_of_pos h, List.countP_eq_length_filter]
  split
  · rename_i he
    rw [he, List.getElem?_append_right (Nat.le_refl _)]
    simp [Option.filter, hl]
  · rename_i he
    split
    · rename_i hlt
      rw [List.getElem?_append_left hlt]
    · rename_i hlt
      rw [List.getElem?_append_right (by omega), List.getElem?_cons]
      rw [if_neg (by omega)]

theorem Spec.ElementsStay.refl {Q : List Node → List Node → Prop} (hQ : ∀ x, Q x x) (ks : List Node) : ElementsStay Q ks ks :=
  fun _ m hm => ⟨m.children, by cases m; exact hm, hQ _⟩

theorem Spec.ElementsStay.comp {Q Q' Q'' : List Node → List Node → Prop} {a b c : List Node} (h : ElementsStay Q a b)
    (h' : ElementsStay Q' b c) (hQ : ∀ x y z, Q x y → Q' y z → Q'' x z) : ElementsStay Q'' a c := by
  intro i m hm
  obtain ⟨cs, h1, h2⟩ := h i m hm
  obtain ⟨ds, h3, h4⟩ := h' i _ h1
  exact ⟨ds, h3, hQ _ _ _ h2 h4⟩

/-- One element changes, the others do not. -/
theorem Spec.AtElement.elements {i : Nat} {R : Node → Step} {ks ks' : List Node} {says : List (Category × Str)} (h : AtElement i R ks ks' says)
    {Q : List Node → List Node → Prop} (hR : ∀ e x y s, R e x y s → e.comment = [] ∧ Q x y) :
    (∀ j, j ≠ i → elementAt j ks' = elementAt j ks) ∧
    ∃ m cs, elementAt i ks = some m ∧ elementAt i ks' = some { m with children := cs } ∧ Q m.children cs := by
  cases h with
  | @mk _ a b cs m _ hk hi hc hl hr =>
    subst hk
    obtain ⟨h1, h2⟩ := hR _ _ _ _ hr
    have hr1 : real m = true := by unfold real; rw [hc]; rfl
    have hr2 : real { m with children := cs } = true := by simp [real, Node.isComment, h1]
    refine ⟨?_, m, cs, ?_, ?_, h2⟩
    · intro j hj
      rw [elementAt_mid hr1 hl, elementAt_mid hr2 hl, hi, if_neg hj, if_neg hj]
    · rw [elementAt_mid hr1 hl, hi, if_pos rfl]
    · rw [elementAt_mid hr2 hl, hi, if_pos rfl]

theorem Spec.EachElement.elements {R : Node → Step} {i n : Nat} {ks ks' : List Node} {says : List (Category × Str)}
    (h : EachElement R i n ks ks' says) {Q : List Node → List Node → Prop} (hQ : ∀ x, Q x x)
    (hR : ∀ e x y s, R e x y s → e.comment = [] ∧ Q x y) :
    (∀ j, j < i → elementAt j ks' = elementAt j ks) ∧ ElementsStay Q ks ks' := by
  induction h with
  | done => exact ⟨fun _ _ => rfl, ElementsStay.refl hQ _⟩
  | @step i n ks ks1 ks2 s1 s2 h1 _ ih =>
    obtain ⟨e1, m, cs, e2, e3, e4⟩ := h1.elements hR
    refine ⟨fun j hj => by rw [ih.1 j (by omega), e1 j (by omega)], ?_⟩
    intro j k hk
    by_cases hj : j = i
    · subst hj
      rw [e2] at hk
      injection hk with hk
      subst hk
      exact ⟨cs, by rw [ih.1 j (by omega), e3], e4⟩
    · exact ih.2 j k (by rw [e1 j hj, hk])

theorem Spec.EachOutput.elements {R : List Str → Step} {i n : Nat} {ks ks' : List Node} {says : List (Category × Str)}
    (h : EachOutput R i n ks ks' says) {Q : List Node → List Node → Prop} (hQ : ∀ x, Q x x)
    (hR : ∀ comps x y s, R comps x y s → Q x y) :
    (∀ j, j < i → elementAt j ks' = elementAt j ks) ∧ ElementsStay Q ks ks' := by
  induction h with
  | done => exact ⟨fun _ _ => rfl, ElementsStay.refl hQ _⟩
  | @step i n ks ks1 ks2 s1 s2 h1 _ ih =>
    obtain ⟨e1, m, cs, e2, e3, e4⟩ := h1.elements (Q := Q) fun e x y s hr => ⟨hr.1.2.2.1, hR _ _ _ _ hr.2.2⟩
    refine ⟨fun j hj => by rw [ih.1 j (by omega), e1 j (by omega)], ?_⟩
    intro j k hk
    by_cases hj : j = i
    · subst hj
      rw [e2] at hk
      injection hk with hk
      subst hk
      exact ⟨cs, by rw [ih.1 j (by omega), e3], e4⟩
    · exact ih.2 j k (by rw [e1 j hj, hk])

/-! ## Packages -/

/-- What stays of a package in the steps that leave `source` alone. -/
structure PackageKeeps (more : List Str) (ks ks' : List Node) : Prop where
  others : Stays ([§"extras", §"extra", §"build", §"requirements", §"about", §"test", §"tests"] ++ more) ks ks'
  build : StaysBelow §"build" (Stays changedInBuild) ks ks'
  requirements : StaysBelow §"requirements" (Stays changedInRequirements) ks ks'
  about : StaysBelow §"about" (Stays changedInAbout) ks ks'

section packages
variable {E : Env} {more : List Str} {a b c : List Node}

theorem PackageKeeps.refl (a : List Node) : PackageKeeps more a a :=
  ⟨Stays.refl _ _, StaysBelow.refl (Stays.refl _) _, StaysBelow.refl (Stays.refl _) _, StaysBelow.refl (Stays.refl _) _⟩

theorem PackageKeeps.trans (h : PackageKeeps more a b) (h' : PackageKeeps more b c) : PackageKeeps more a c :=
  ⟨h.others.trans h'.others, h.build.trans h'.build, h.requirements.trans h'.requirements, h.about.trans h'.about⟩

theorem Spec.PackageStays.refl (a : List Node) : PackageStays E more a a := by
  refine ⟨Stays.refl _ _, StaysBelow.refl (Stays.refl _) _, StaysBelow.refl (Stays.refl _) _, StaysBelow.refl (Stays.refl _) _, ?_⟩
  intro m v hm hv
  refine ⟨m.children, by cases m; exact hm, ?_⟩
  cases v <;> first | exact ElementsStay.refl (Stays.refl _) _ | exact Stays.refl _ _

theorem changed_sub (more : List Str) : ∀ x ∈ [§"extras", §"extra", §"build", §"requirements", §"about", §"test", §"tests"] ++ more,
    x ∈ changedSections ++ more := by
  intro x h0
  rcases List.mem_append.1 h0 with hx | hx
  · clear h0
    refine List.mem_append_left _ ?_
    revert x
    decide
  · exact List.mem_append_right _ hx

theorem PackageKeeps.after (h : PackageKeeps more a b) (hm : §"source" ∉ more) (h' : PackageStays E more b c) : PackageStays E more a c := by
  refine ⟨(h.others.mono (changed_sub more)).trans h'.others, h.build.trans h'.build, h.requirements.trans h'.requirements,
    h.about.trans h'.about, ?_⟩
  intro m v hm' hv
  exact h'.source m v (h.others _ (by rw [List.mem_append, not_or]; exact ⟨by decide, hm⟩) _ hm') hv

theorem Spec.PackageStays.then (h : PackageStays E more a b) (hm : §"source" ∉ more) (h' : PackageKeeps more b c) : PackageStays E more a c := by
  refine ⟨h.others.trans (h'.others.mono (changed_sub more)), h.build.trans h'.build, h.requirements.trans h'.requirements,
    h.about.trans h'.about, ?_⟩
  intro m v hm' hv
  obtain ⟨cs, h1, h2⟩ := h.source m v hm' hv
  exact ⟨cs, h'.others _ (by rw [List.mem_append, not_or]; exact ⟨by decide, hm⟩) _ h1, h2⟩

theorem Spec.SpellingCorrected.keeps (h : SpellingCorrected E a b) : PackageKeeps more a b := by
  obtain ⟨k1, h1, h2⟩ := h
  have e1 := h1.stays
  have e2 := h2.stays
  refine ⟨(e1.mono (by simp)).trans (e2.mono (by simp)), ?_, ?_, ?_⟩
  · refine StaysBelow.trans (h1.below fun hr => hr.1.stays.mono (by decide)) (e2.below (by decide) (Stays.refl _))
  · exact StaysBelow.trans (e1.below (by decide) (Stays.refl _)) (e2.below (by decide) (Stays.refl _))
  · exact StaysBelow.trans (e1.below (by decide) (Stays.refl _)) (e2.below (by decide) (Stays.refl _))

theorem Spec.BuildMoved.keeps {comps : List Str} {says : List (Category × Str)} (h : BuildMoved E comps a b says) : PackageKeeps more a b := by
  obtain ⟨k1, k2, h1, h2, h3⟩ := h
  have e1 := h1.stays
  have e2 := h2.stays
  have e3 := h3.stays
  refine ⟨(e1.mono (by simp)).trans ((e2.mono (by simp)).trans (e3.mono (by simp))), ?_, ?_, ?_⟩
  · refine (h1.build.mono fun _ _ h => h.mono (by decide)).trans ((h2.build.mono fun _ _ h => h.mono (by decide)).trans
      (h3.below fun hr => hr.stays))
  · refine (h1.requirements.mono fun _ _ h => h.mono (by decide)).trans ((h2.requirements.mono fun _ _ h => h.mono (by decide)).trans
      (e3.below (by decide) (Stays.refl _)))
  · exact StaysBelow.trans (e1.below (by decide) (Stays.refl _)) (StaysBelow.trans (e2.below (by decide) (Stays.refl _))
      (e3.below (by decide) (Stays.refl _)))

theorem requirements_keeps {says : List (Category × Str)}
    (h : InKey §"requirements" (quiet (Renamed E (fun _ => True) §"run_constrained" §"run_constraints")) a b says) : PackageKeeps more a b :=
  ⟨h.stays.mono (by simp), h.stays.below (by decide) (Stays.refl _), h.below fun hr => hr.1.stays.mono (by decide),
    h.stays.below (by decide) (Stays.refl _)⟩

theorem about_keeps {recognised : Str → Option Str} {ok : List Node → Prop} {comps : List Str} {says : List (Category × Str)}
    (h : InKey §"about" (AboutUpgraded E recognised ok comps) a b says) : PackageKeeps more a b :=
  ⟨h.stays.mono (by simp), h.stays.below (by decide) (Stays.refl _), h.stays.below (by decide) (Stays.refl _), h.below fun hr => hr.stays⟩

theorem Spec.TestsUpgraded.keeps (h : TestsUpgraded E a b) : PackageKeeps more a b :=
  ⟨h.stays.mono (by simp), h.stays.below (by decide) (Stays.refl _), h.stays.below (by decide) (Stays.refl _),
    h.stays.below (by decide) (Stays.refl _)⟩

theorem Spec.SourcesUpgraded.package {says : List (Category × Str)} (h : SourcesUpgraded E a b says) : PackageStays E more a b := by
  refine ⟨h.stays.mono (by simp [changedSections]), h.stays.below (by decide) (Stays.refl _), h.stays.below (by decide) (Stays.refl _),
    h.stays.below (by decide) (Stays.refl _), ?_⟩
  intro k v hk hv
  cases h with
  | absent ha => rw [firstKey_none.2 ha] at hk; cases hk
  | single hs hf _ hv' hl hu =>
    subst hs
    rw [firstKey_iff.2 ⟨_, _, rfl, hf⟩] at hk
    injection hk with hk
    subst hk
    rw [hv] at hv'
    injection hv' with hv'
    subst hv'
    refine ⟨_, firstKey_iff.2 ⟨_, _, rfl, hf.named, hf.first⟩, ?_⟩
    have := hu.stays
    cases v <;> first | exact this | exact absurd rfl (hl _)
  | several hs hf _ hv' hu =>
    subst hs
    rw [firstKey_iff.2 ⟨_, _, rfl, hf⟩] at hk
    injection hk with hk
    subst hk
    rw [hv] at hv'
    injection hv' with hv'
    subst hv'
    refine ⟨_, firstKey_iff.2 ⟨_, _, rfl, hf.named, hf.first⟩, ?_⟩
    exact (hu.elements (Stays.refl _) fun e x y s hr => ⟨hr.1.2.2.1, hr.2.stays⟩).2

/-! ## Recipes -/

/-- What stays of a recipe in the steps that leave `source` alone. -/
structure RecipeKeeps (more : List Str) (a b : List Node) : Prop where
  top : PackageKeeps (§"outputs" :: more) a b
  outputs : StaysBelow §"outputs" (ElementsStay (PackageKeeps [§"name", §"version", §"package"])) a b

theorem not_source (h : §"source" ∉ more) : §"source" ∉ §"outputs" :: more := by
  rw [List.mem_cons, not_or]
  exact ⟨by decide, h⟩

theorem RecipeKeeps.trans (h : RecipeKeeps more a b) (h' : RecipeKeeps more b c) : RecipeKeeps more a c :=
  ⟨h.top.trans h'.top, h.outputs.comp h'.outputs fun _ _ _ x y => x.comp y fun _ _ _ => PackageKeeps.trans⟩

theorem RecipeKeeps.after (h : RecipeKeeps more a b) (hm : §"source" ∉ more) (h' : RecipeStays E more b c) : RecipeStays E more a c :=
  ⟨h.top.after (not_source hm) h'.top, h.outputs.comp h'.outputs fun _ _ _ x y => x.comp y fun _ _ _ p q => p.after (by decide) q⟩

theorem Spec.RecipeStays.then (h : RecipeStays E more a b) (hm : §"source" ∉ more) (h' : RecipeKeeps more b c) : RecipeStays E more a c :=
  ⟨h.top.then (not_source hm) h'.top, h.outputs.comp h'.outputs fun _ _ _ x y => x.comp y fun _ _ _ p q => p.then (by decide) q⟩

/-- A step that only concerns `outputs`. -/
theorem keeps_outputs (h : Stays [§"outputs"] a b) : PackageKeeps (§"outputs" :: more) a b :=
  ⟨h.mono (by simp), h.below (by decide) (Stays.refl _), h.below (by decide) (Stays.refl _), h.below (by decide) (Stays.refl _)⟩

theorem Spec.Outputs.stays {R : List Str → Step} {n : Nat} {says : List (Category × Str)} (h : Outputs R n a b says) : Stays [§"outputs"] a b := by
  cases h with
  | none _ => exact Stays.refl _ _
  | some _ h => exact h.stays

theorem Spec.Outputs.outputs {R : List Str → Step} {n : Nat} {says : List (Category × Str)} (h : Outputs R n a b says)
    {Q : List Node → List Node → Prop} (hQ : ∀ x, Q x x) (hR : ∀ comps x y s, R comps x y s → Q x y) :
    StaysBelow §"outputs" (ElementsStay Q) a b := by
  cases h with
  | none _ => exact StaysBelow.refl (ElementsStay.refl hQ) _
  | some _ h => exact h.below fun hr => (hr.elements hQ hR).2

theorem Spec.Packages.keeps {R : List Str → Step} {n : Nat} {says : List (Category × Str)} (h : Packages R n a b says)
    (hR : ∀ comps more x y s, R comps x y s → PackageKeeps more x y) : RecipeKeeps more a b := by
  cases h with
  | mk h1 h2 =>
    have e1 := hR _ [] _ _ _ h1
    refine RecipeKeeps.trans (b := _) ⟨hR _ _ _ _ _ h1, ?_⟩ ⟨keeps_outputs h2.stays, h2.outputs PackageKeeps.refl fun _ _ _ _ hr => hR _ _ _ _ _ hr⟩
    exact e1.others.below (by decide) (ElementsStay.refl PackageKeeps.refl)

theorem Spec.Packages.sources {n : Nat} {says : List (Category × Str)} (h : Packages (fun _ => SourcesUpgraded E) n a b says) :
    RecipeStays E [] a b := by
  cases h with
  | mk h1 h2 =>
    refine ⟨Spec.PackageStays.then h1.package (by decide) (keeps_outputs h2.stays), ?_⟩
    refine StaysBelow.comp (Q := ElementsStay (PackageKeeps [§"name", §"version", §"package"]))
      (Q' := ElementsStay (PackageStays E [§"name", §"version", §"package"]))
      (h1.stays.below (by decide) (ElementsStay.refl PackageKeeps.refl))
      (h2.outputs PackageStays.refl fun _ _ _ _ hr => hr.package) ?_
    exact fun _ _ _ x y => x.comp y fun _ _ _ p q => p.after (by decide) q

theorem Spec.SectionsUpgraded.stays {recognised : Str → Option Str} {n : Nat} {says : List (Category × Str)}
    (h : SectionsUpgraded E recognised n a b says) : RecipeStays E [] a b := by
  cases h with
  | mk h1 h2 h3 h4 h5 h6 =>
    have e1 := h1.keeps (more := []) fun _ _ _ _ _ hr => hr.1.keeps
    have e3 := h3.keeps (more := []) fun _ _ _ _ _ hr => hr.keeps
    have e4 := h4.keeps (more := []) fun _ _ _ _ _ hr => requirements_keeps hr
    have e5 := h5.keeps (more := []) fun _ _ _ _ _ hr => about_keeps hr
    have e6 := h6.keeps (more := []) fun _ _ _ _ _ hr => hr.1.keeps
    exact ((((e1.after (by simp) h2.sources).then (by simp) e3).then (by simp) e4).then (by simp) e5).then (by simp) e6

theorem Spec.OutputUpgraded.keeps (h : OutputUpgraded E a b) : PackageKeeps [§"name", §"version", §"package"] a b := by
  have key : Stays [§"name", §"version", §"package"] a b := by
    cases h with
    | plain _ _ h => exact h.stays.mono (by simp)
    | packaged _ h1 h2 h3 h4 =>
      exact (h1.stays.mono (by simp)).trans ((h2.stays.mono (by simp)).trans ((h3.stays.mono (by simp)).trans (h4.stays.mono (by simp))))
  exact ⟨key.mono (by simp), key.below (by decide) (Stays.refl _), key.below (by decide) (Stays.refl _), key.below (by decide) (Stays.refl _)⟩

theorem Spec.OutputsUpgraded.keeps {n : Nat} (h : OutputsUpgraded E n a b) : RecipeKeeps [§"package", §"recipe"] a b := by
  cases h with
  | without _ => exact ⟨PackageKeeps.refl _, StaysBelow.refl (ElementsStay.refl PackageKeeps.refl) _⟩
  | «with» _ h1 h2 =>
    have e1 := h1.stays
    refine RecipeKeeps.trans ⟨⟨e1.mono (by simp), ?_, ?_, ?_⟩, ?_⟩
      ⟨keeps_outputs h2.stays, h2.outputs PackageKeeps.refl fun _ _ _ _ hr => hr.1.keeps⟩
    · exact e1.below (by decide) (Stays.refl _)
    · exact e1.below (by decide) (Stays.refl _)
    · exact e1.below (by decide) (Stays.refl _)
    · exact e1.below (by decide) (ElementsStay.refl PackageKeeps.refl)

theorem ordered_keeps {names : List Str} (h : Ordered names a b) : RecipeKeeps more a b := by
  have e1 := Ordered.stays h
  exact ⟨⟨e1.mono (by simp), e1.below (by simp) (Stays.refl _), e1.below (by simp) (Stays.refl _), e1.below (by simp) (Stays.refl _)⟩,
    e1.below (by simp) (ElementsStay.refl PackageKeeps.refl)⟩

theorem Spec.PackageStays.weaken {more' : List Str} (h : PackageStays E more a b) (hm : ∀ x ∈ more, x ∈ more') : PackageStays E more' a b := by
  refine ⟨h.others.mono ?_, h.build, h.requirements, h.about, h.source⟩
  intro x hx
  rcases List.mem_append.1 hx with hx | hx
  · exact List.mem_append_left _ hx
  · exact List.mem_append_right _ (hm x hx)

end packages

end Crm

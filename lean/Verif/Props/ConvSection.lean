import Verif.Lemmas.ConvSteps
import Verif.Props.Convert

/-!
# Converting a recipe: fields that are no longer supported (C80)
-/

namespace Crm
open Spec Act

theorem without_filter (f : Str) (ks : List Node) (hd : DistinctKeys ks) :
    without f ks = ks.filter fun k => !decide (k.value = .str f) := by
  unfold without
  induction ks with
  | nil => rfl
  | cons a as ih =>
    obtain ⟨h1, h2⟩ := List.pairwise_cons.1 hd
    by_cases h : a.value = .str f
    · rw [List.eraseP_cons_of_pos (by simpa using h), List.filter_cons_of_neg (by simpa using h), List.filter_eq_self.2]
      intro b hb
      simpa using h1 b hb f h
    · rw [List.eraseP_cons_of_neg (by simpa using h), List.filter_cons_of_pos (by simpa using h), ih h2]

theorem absent_filter {f : Str} {ks : List Node} (ha : Absent f ks) : (ks.filter fun k => !decide (k.value = .str f)) = ks := by
  rw [List.filter_eq_self]
  intro k hk
  simpa using ha k hk

/-- If no name occurs twice in the section, then exactly the fields of the list are taken out, the others stay in
order, and the fields reported are those that were there, each once. -/
theorem dropFields_distinct (fs : List Str) (ks : List Node) (hd : DistinctKeys ks) :
    (dropFields fs ks).1 = ks.filter (fun k => !fs.any fun f => decide (k.value = .str f)) ∧
    (∀ f, f ∈ (dropFields fs ks).2 ↔ f ∈ fs ∧ ¬ Absent f ks) ∧ (dropFields fs ks).2.Nodup := by
  induction fs generalizing ks with
  | nil => simp [dropFields, List.filter_eq_self.2]
  | cons f fs ih =>
    have hp : ∀ k : Node, (!(f :: fs).any fun f => decide (k.value = .str f)) =
        ((!fs.any fun f => decide (k.value = .str f)) && !decide (k.value = .str f)) := by
      intro k; simp only [List.any_cons, Bool.not_or, Bool.and_comm]
    have hf : ks.filter (fun k => !(f :: fs).any fun f => decide (k.value = .str f)) =
        (ks.filter fun k => !decide (k.value = .str f)).filter fun k => !fs.any fun f => decide (k.value = .str f) := by
      rw [List.filter_filter]; congr 1; funext k; exact hp k
    simp only [dropFields]
    by_cases ha : Absent f ks
    · rw [if_pos ha, hf, absent_filter ha]
      obtain ⟨i1, i2, i3⟩ := ih ks hd
      refine ⟨i1, fun g => ?_, i3⟩
      rw [i2 g]
      constructor
      · rintro ⟨h1, h2⟩; exact ⟨by simp [h1], h2⟩
      · rintro ⟨h1, h2⟩
        rcases List.mem_cons.1 h1 with rfl | h1
        · exact absurd ha h2
        · exact ⟨h1, h2⟩
    · rw [if_neg ha, hf, ← without_filter f ks hd]
      have hd' : DistinctKeys (without f ks) := List.Pairwise.sublist List.eraseP_sublist hd
      obtain ⟨i1, i2, i3⟩ := ih (without f ks) hd'
      have hgone : Absent f (without f ks) := by
        rw [without_filter f ks hd]
        intro k hk
        simpa using (List.mem_filter.1 hk).2
      refine ⟨i1, fun g => ?_, List.nodup_cons.2 ⟨fun h => ((i2 f).1 h).2 hgone, i3⟩⟩
      rw [List.mem_cons, i2 g]
      constructor
      · rintro (rfl | ⟨h1, h2⟩)
        · exact ⟨by simp, ha⟩
        · exact ⟨by simp [h1], fun h => h2 fun k hk => h k (List.mem_of_mem_eraseP hk)⟩
      · rintro ⟨h1, h2⟩
        by_cases hg : g = f
        · exact Or.inl hg
        · right
          refine ⟨(List.mem_cons.1 h1).resolve_left hg, fun h => h2 fun k hk hv => ?_⟩
          refine h k ?_ hv
          rw [without_filter f ks hd, List.mem_filter]
          refine ⟨hk, ?_⟩
          rw [hv]
          simpa using hg

theorem dropFields_sublist : ∀ (fs : List Str) (ks : List Node), (dropFields fs ks).2.Sublist fs
  | [], _ => List.Sublist.refl _
  | f :: fs, ks => by
    simp only [dropFields]
    split
    · exact (dropFields_sublist fs ks).cons _
    · exact (dropFields_sublist fs (without f ks)).cons_cons _

/-- C80: the fields of a list are taken out of a section in which no name occurs twice.  Exactly the fields of the list go,
the others stay in their order, every field that was there is reported once, in the order of the list, and nothing else in
the recipe changes. -/
theorem C80_deprecated_partial {E : Env} {c : Conv} {comps : List Str} {pos : Pos} {n : Node} {ks : List Node} {base : Str}
    (hb : base = absPath comps ∨ base = absPath comps ++ §"/") (h : Section c comps pos n ks) (hkey : n.key = true)
    (hv : n.value ≠ .sentinel) (hend : endsInNumber comps = false) (hks : ∀ k ∈ ks, bareValue k = false)
    (hd : DistinctKeys ks) (fs : List Str) (hfs : ∀ f ∈ fs, KeyName f) :
    ∃ (c' : Conv) (reported : List Str), patchDeprecated E base fs c = (.ok (), c') ∧
      Became c c' pos (ks.filter fun k => !fs.any fun f => decide (k.value = .str f)) (reported.map (unsupported comps)) ∧
      (∀ f, f ∈ reported ↔ f ∈ fs ∧ ¬ Absent f ks) ∧ reported.Nodup ∧ reported.Sublist fs := by
  have hn : ∀ ks, Host comps n ks := fun ks => Or.inl ⟨Or.inl hkey, hv, hend⟩
  obtain ⟨c', h1, h2, _⟩ := dropFields_in_section (E := E) hb h.path hn fs ks hfs hks c h
  obtain ⟨d1, d2, d3⟩ := dropFields_distinct fs ks hd
  exact ⟨c', _, h1, d1 ▸ h2, d2, d3, dropFields_sublist fs ks⟩

/-- A section with two obsolete fields, for an example. -/
private def exDrop : Conv :=
  ⟨Toy.recipe "about:\n  tags: x\n  license: MIT\n  keywords: y\n", Toy.recipe "about:\n  tags: x\n  license: MIT\n  keywords: y\n", []⟩

private def dk (name v : Str) : Node := ⟨.str name, [], [⟨.str v, [], [], false, .no, false⟩], false, .no, true⟩

example : ∃ (c' : Conv) (reported : List Str), patchDeprecated Toy.env §"/about" [§"keywords", §"identifiers", §"tags"] exDrop = (.ok (), c') ∧
    Became exDrop c' [0] [dk §"license" §"MIT"] (reported.map (unsupported [§"about"])) ∧
    (∀ f, f ∈ reported ↔ f ∈ [§"keywords", §"identifiers", §"tags"] ∧
      ¬ Absent f [dk §"tags" §"x", dk §"license" §"MIT", dk §"keywords" §"y"]) ∧ reported.Nodup ∧
    reported.Sublist [§"keywords", §"identifiers", §"tags"] :=
  C80_deprecated_partial (E := Toy.env) (comps := [§"about"]) (pos := [0]) (n := ⟨.str §"about", [], [], false, .no, true⟩)
    (ks := [dk §"tags" §"x", dk §"license" §"MIT", dk §"keywords" §"y"]) (Or.inl rfl)
    (by constructor <;> decide +kernel) rfl (by decide) (by decide) (by decide) (by decide) _ (by decide)

/-- C80, the full statement fails: a field that is written twice is taken out once and reported once; the other one stays in
the converted recipe. -/
theorem C80_duplicate_stays : converted Toy.env exWorld §"about:\n  license: MIT\n  tags: x\n  tags: y\n" =
    .ok (§"schema_version: 1\n\nabout:\n  license: MIT\n  tags: y\n",
      [(.warning, [§"Field at `/about/tags` is no longer supported."])]) := by decide +kernel

end Crm

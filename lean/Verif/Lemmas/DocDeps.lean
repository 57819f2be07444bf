import Verif.Spec.DocDeps
import Verif.Props.BumpFile
import Verif.Props.DocComment

/-! # One line more or less below a key; two edits at the same place -/

namespace Crm
open Spec Doc

theorem within_flip {R : List Doc → List Doc → Prop} {path : List Str} {ds ds' : List Doc} (h : Within R path ds ds') :
    Within (fun a b => R b a) path ds' ds := by
  induction h with
  | here h => exact .here h
  | key h1 h2 _ ih => exact .key h1 h2 ih
  | element h1 h2 _ ih => exact .element h1 h2 ih

theorem within_insert {R : List Doc → List Doc → Prop} {path : List Str} {ds ds' : List Doc} {b : Str} (h : Within R path ds ds')
    (hR : ∀ cs cs', R cs cs' → ∀ level, ∃ before margin after, linesL level cs = before ++ after ∧
      linesL level cs' = before ++ (margin ++ b) :: after ∧ ∀ c ∈ margin, c = ' ')
    (hne : path ≠ []) (hk : endsInNumber path = false) : EntryAdd b ds ds' := by
  induction h with
  | here _ => exact absurd rfl hne
  | @key k c cs cs' pre post path _ _ hw ih =>
    have key : ∀ level, ∃ before margin after, linesL level cs = before ++ after ∧
        linesL level cs' = before ++ (margin ++ b) :: after ∧ ∀ c ∈ margin, c = ' ' := by
      cases path with
      | nil => cases hw with | here h => exact hR _ _ h
      | cons q qs =>
        intro level
        obtain ⟨x, m, y, h1, h2, h3, _⟩ := entryAdd_list (ih (by simp) (by rw [← endsInNumber_cons k]; exact hk)) level
        exact ⟨x, m, y, h1, h2, h3⟩
    refine ⟨pre, _, _, post, rfl, rfl, (sec_lines 0 k c _).2, (sec_lines 0 k c _).2, fun level => ?_⟩
    obtain ⟨before, margin, after, h1, h2, h3⟩ := key (level + 1)
    refine ⟨(ind level ++ withComment (k ++ §":") c) :: before, margin, after, ?_, ?_, h3, by simp⟩
    · rw [(sec_lines level k c _).1, h1]; simp
    · rw [(sec_lines level k c _).1, h2]; simp
  | @element i first rest first' rest' pre post path hi _ hw ih =>
    cases path with
    | nil => simp [endsInNumber, hi] at hk
    | cons q qs =>
      have ih := entryAdd_list (ih (by simp) (by rw [← endsInNumber_cons i]; exact hk))
      refine ⟨pre, _, _, post, rfl, rfl, rfl, rfl, fun level => ?_⟩
      obtain ⟨before, margin, after, h1, h2, h3, h4⟩ := ih (level + 1)
      cases before with
      | nil => exact absurd rfl (h4 (by simp))
      | cons l before =>
        simp only [linesL, List.cons_append, List.cons.injEq] at h1 h2
        have hh : first.head = first'.head := List.append_cancel_left (h1.1.trans h2.1.symm)
        refine ⟨(ind level ++ (§"- " ++ first.head)) :: before, margin, after, ?_, ?_, h3, by simp⟩
        · rw [elem_line, h1.2]; simp
        · rw [elem_line, h2.2, hh]; simp

theorem entryAdd_file {b : Str} {vars : List (Str × PyVal)} {ds ds' : List Doc} (h : EntryAdd b ds ds') :
    (LineChange.added b).Holds (fileTextLines vars ds) (fileTextLines vars ds') := by
  obtain ⟨pre, d, d', post, rfl, rfl, hd, hd', hl⟩ := h
  obtain ⟨before, margin, after, h1, h2, h3, _⟩ := hl 0
  refine ⟨vars.map (fun kv => defLine kv.1 kv.2) ++ (if vars = [] then [] else [[]]) ++ (documentLines pre ++ before), margin,
    after ++ ([[]] ++ documentLines post), ?_, ?_, h3⟩
  · rw [fileTextLines, documentLines_join, documentLines, h1, hd]; simp
  · rw [fileTextLines, documentLines_join, documentLines, h2, hd']; simp

theorem fileTextLines_text (vars : List (Str × PyVal)) (ds : List Doc) : recipeText vars ds = joinStr §"\n" (fileTextLines vars ds) := rfl

/-- An edit in two steps at the same place. -/
theorem within_two {R S T : List Doc → List Doc → Prop} {path : List Str} {ds ds' : List Doc} (h : Within R path ds ds')
    (hR : ∀ cs cs', R cs cs' → ∃ cm, S cs cm ∧ T cm cs') (hne : path ≠ []) (hk : endsInNumber path = false) :
    ∃ dm, Within S path ds dm ∧ Within T path dm ds' ∧ dm ≠ [] := by
  induction h with
  | here _ => exact absurd rfl hne
  | @key k c cs cs' pre post path h1 h2 hw ih =>
    have : ∃ cm, Within S path cs cm ∧ Within T path cm cs' := by
      cases path with
      | nil =>
        cases hw with
        | here h =>
          obtain ⟨cm, a, b⟩ := hR _ _ h
          exact ⟨cm, .here a, .here b⟩
      | cons q qs =>
        obtain ⟨dm, a, b, _⟩ := ih (by simp) (by rw [← endsInNumber_cons k]; exact hk)
        exact ⟨dm, a, b⟩
    obtain ⟨cm, a, b⟩ := this
    exact ⟨pre ++ sec k c cm :: post, .key h1 h2 a, .key h1 h2 b, by simp⟩
  | @element i first rest first' rest' pre post path hi hc hw ih =>
    cases path with
    | nil => simp [endsInNumber, hi] at hk
    | cons q qs =>
      obtain ⟨dm, a, b, hd⟩ := ih (by simp) (by rw [← endsInNumber_cons i]; exact hk)
      cases dm with
      | nil => exact absurd rfl hd
      | cons f l => exact ⟨pre ++ elem f l :: post, .element hi hc a, .element hi hc b, by simp⟩

theorem sec_inj {k c c' : Str} {cs cs' : List Doc} (h : sec k c cs = sec k c' cs') : c = c' ∧ cs = cs' := by
  unfold sec at h
  split at h <;> split at h
  · rename_i a b; simp only [Doc.empty.injEq] at h; exact ⟨h.2, by rw [a, b]⟩
  · cases h
  · cases h
  · simp only [Doc.block.injEq] at h; exact h.2

theorem first_split {α} {p : α → Prop} {xs xs' ys ys' : List α} {a b : α} (h : xs ++ a :: ys = xs' ++ b :: ys')
    (h1 : ∀ x ∈ xs, ¬ p x) (h2 : ∀ x ∈ xs', ¬ p x) (ha : p a) (hb : p b) : xs = xs' ∧ a = b ∧ ys = ys' := by
  induction xs generalizing xs' with
  | nil =>
    cases xs' with
    | nil => simp only [List.nil_append, List.cons.injEq] at h; exact ⟨rfl, h.1, h.2⟩
    | cons x xs' =>
      simp only [List.nil_append, List.cons_append, List.cons.injEq] at h
      exact absurd (h.1 ▸ ha) (h2 x (by simp))
  | cons x xs ih =>
    cases xs' with
    | nil =>
      simp only [List.nil_append, List.cons_append, List.cons.injEq] at h
      exact absurd (h.1 ▸ hb) (h1 x (by simp))
    | cons x' xs' =>
      simp only [List.cons_append, List.cons.injEq] at h
      obtain ⟨rfl, h⟩ := h
      obtain ⟨rfl, h3⟩ := ih h (fun y hy => h1 y (by simp [hy])) (fun y hy => h2 y (by simp [hy]))
      exact ⟨rfl, h3⟩

theorem count_split {xs xs' ys ys' : List Doc} {a b : Doc} (h : xs ++ a :: ys = xs' ++ b :: ys')
    (hc : entryCount xs = entryCount xs') (ha : real a.node = true) (hb : real b.node = true) : xs = xs' ∧ a = b ∧ ys = ys' := by
  induction xs generalizing xs' with
  | nil =>
    cases xs' with
    | nil => simp only [List.nil_append, List.cons.injEq] at h; exact ⟨rfl, h.1, h.2⟩
    | cons x xs' =>
      simp only [List.nil_append, List.cons_append, List.cons.injEq] at h
      obtain ⟨rfl, _⟩ := h
      simp [entryCount, ha] at hc
  | cons x xs ih =>
    cases xs' with
    | nil =>
      simp only [List.nil_append, List.cons_append, List.cons.injEq] at h
      obtain ⟨rfl, _⟩ := h
      simp [entryCount, hb] at hc
    | cons x' xs' =>
      simp only [List.cons_append, List.cons.injEq] at h
      obtain ⟨rfl, h⟩ := h
      have hc' : entryCount xs = entryCount xs' := by
        simp only [entryCount, List.countP_cons] at hc ⊢
        omega
      obtain ⟨rfl, h3⟩ := ih h hc'
      exact ⟨rfl, h3⟩

/-- A path names one place only. -/
theorem within_functional {R : List Doc → List Doc → Prop} {path : List Str} {ds d1 d2 : List Doc} (h1 : Within R path ds d1)
    (h2 : Within R path ds d2) (hR : ∀ cs a b, R cs a → R cs b → a = b) : d1 = d2 := by
  induction h1 generalizing d2 with
  | here h => cases h2 with | here h' => exact hR _ _ _ h h'
  | @key k c cs cs' pre post path hk hf hw ih =>
    generalize hds : pre ++ sec k c cs :: post = ds at h2
    cases h2 with
    | @key _ c2 cs2 cs2' pre2 post2 _ _ hf2 hw2 =>
      have hv : ∀ (c : Str) cs, (sec k c cs).node.value = .str k := fun c cs => by rw [sec_node]
      obtain ⟨rfl, e, rfl⟩ := first_split (p := fun d : Doc => d.node.value = .str k) hds hf hf2 (hv _ _) (hv _ _)
      obtain ⟨rfl, rfl⟩ := sec_inj e
      rw [ih hw2]
    | element hd _ _ => rw [hk] at hd; cases hd
  | @element i first rest first' rest' pre post path hi hc hw ih =>
    generalize hds : pre ++ elem first rest :: post = ds at h2
    cases h2 with
    | key hd _ _ => rw [hi] at hd; cases hd
    | @element _ f2 r2 f2' r2' pre2 post2 _ _ hc2 hw2 =>
      have hre : ∀ a b, real (elem a b).node = true := fun a b => by simp [real, node, Node.isComment]
      obtain ⟨rfl, e, rfl⟩ := count_split hds (by rw [← hc, ← hc2]) (hre _ _) (hre _ _)
      simp only [Doc.elem.injEq] at e
      obtain ⟨rfl, rfl⟩ := e
      have := ih hw2
      simp only [List.cons.injEq] at this
      rw [this.1, this.2]

end Crm

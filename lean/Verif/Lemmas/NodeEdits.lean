import Verif.Spec.NodeEdits
import Verif.Lemmas.ConvSection

/-! # Edits at several places -/

namespace Crm
open Spec

theorem putNode_updateAt (new : Node) : ∀ (pos : Pos) (t : Node), putNode new pos t = updateAt (fun _ => new) pos t
  | [], _ => rfl
  | i :: p, t => by
    simp only [putNode, updateAt]
    congr 1
    apply List.ext_getElem?
    intro j
    rw [List.getElem?_mapIdx, List.getElem?_modify]
    cases t.children[j]? with
    | none => rfl
    | some c =>
      simp only [Option.map_some, Option.map_eq_map]
      by_cases h : i = j
      · subst h; simp [putNode_updateAt new p c]
      · rw [if_neg (fun e => h e.symm), if_neg h]

/-- Replacing a child does not change where a component leads, unless it leads to that child. -/
theorem childIdx_other {n n' : Node} {pre post : List Node} {c c' : Node} {part : Str} {i : Nat}
    (hn : n.children = pre ++ c :: post) (hn' : n'.children = pre ++ c' :: post) (hr : c'.isComment = c.isComment)
    (hl : c'.listMember = c.listMember) (hv : c'.value = .str part → c.value = .str part) (h : childIdx n part = some i)
    (hi : i ≠ pre.length) : childIdx n' part = some i := by
  have hget : ∀ j, j ≠ pre.length → (pre ++ c' :: post)[j]? = (pre ++ c :: post)[j]? := by
    intro j hj
    rcases Nat.lt_or_gt_of_ne hj with hlt | hgt
    · rw [List.getElem?_append_left hlt, List.getElem?_append_left hlt]
    · rw [List.getElem?_append_right (Nat.le_of_lt hgt), List.getElem?_append_right (Nat.le_of_lt hgt)]
      obtain ⟨k, hk⟩ : ∃ k, j - pre.length = k + 1 := ⟨j - pre.length - 1, by omega⟩
      rw [hk]; simp
  have htake : ∀ p, ((pre ++ c' :: post).take p).countP real = ((pre ++ c :: post).take p).countP real := by
    intro p
    simp only [List.take_append, List.countP_append]
    congr 1
    cases hp : p - pre.length with
    | zero => simp
    | succ k => simp [List.countP_cons, real, hr]
  unfold childIdx at h ⊢
  rw [hn] at h
  rw [hn']
  by_cases hd : isDigitS part = true
  · rw [if_pos hd] at h ⊢
    rw [← h, show (pre ++ c' :: post).length = (pre ++ c :: post).length by simp]
    congr 1
    funext p
    rw [htake]
    by_cases hp : p = pre.length
    · subst hp
      simp only [List.getElem?_append_right (Nat.le_refl _), Nat.sub_self, List.getElem?_cons_zero, real, hr, hl]
    · rw [hget p hp]
  · rw [if_neg hd] at h ⊢
    rw [List.findIdx?_eq_some_iff_getElem] at h ⊢
    obtain ⟨hlt, h1, h2⟩ := h
    refine ⟨by simpa using hlt, ?_, ?_⟩
    · have := hget i hi
      rw [List.getElem?_eq_getElem hlt, List.getElem?_eq_getElem (by simpa using hlt)] at this
      injection this with this
      rw [this]; exact h1
    · intro j hj
      have hj' : j < (pre ++ c :: post).length := Nat.lt_trans hj hlt
      have h2 := h2 j hj
      by_cases hp : j = pre.length
      · subst hp
        simp only [List.getElem_append_right (Nat.le_refl _), Nat.sub_self, List.getElem_cons_zero, decide_eq_true_eq] at h2 ⊢
        exact fun e => h2 (hv e)
      · have := hget j hp
        rw [List.getElem?_eq_getElem hj', List.getElem?_eq_getElem (by simpa using hj')] at this
        injection this with this
        rw [this]; exact h2

theorem updateAt_isComment {pos : Pos} {t m : Node} (new : Node) (hm : nodeAt t pos = some m) (hk : new.isComment = m.isComment) :
    (updateAt (fun _ => new) pos t).isComment = t.isComment := by
  cases pos with
  | nil => injection hm with hm; subst hm; exact hk
  | cons i p =>
    simp only [nodeAt] at hm
    have : t.children ≠ [] := by intro h; rw [h] at hm; simp at hm
    cases hc : t.children with
    | nil => exact absurd hc this
    | cons a as => cases i <;> simp [updateAt, hc, Node.isComment, Node.isSentinel]

/-- Replacing a node does not change where other paths lead. -/
theorem locate_put {q : List Str} {t m new : Node} {pos p : Pos} (hm : nodeAt t pos = some m) (hr : new.isComment = m.isComment)
    (hl : new.listMember = m.listMember) (hv : ∀ c ∈ q, new.value = .str c → m.value = .str c) (h : locate t q = some p)
    (ha : ¬ pos <+: p) : locate (updateAt (fun _ => new) pos t) q = some p := by
  induction q generalizing t pos p with
  | nil => simp only [locate, Option.some.injEq] at h ⊢; exact h
  | cons part rest ih =>
    simp only [locate] at h
    cases hx : childIdx t part with
    | none => rw [hx] at h; cases h
    | some i =>
      rw [hx] at h
      simp only at h
      cases hc : t.children[i]? with
      | none => rw [hc] at h; cases h
      | some c =>
        rw [hc] at h
        simp only [Option.map_eq_some_iff] at h
        obtain ⟨p', hp', rfl⟩ := h
        cases pos with
        | nil => exact absurd (List.nil_prefix) ha
        | cons j pos' =>
          simp only [nodeAt] at hm
          cases hj : t.children[j]? with
          | none => rw [hj] at hm; cases hm
          | some d =>
            rw [hj] at hm
            simp only at hm
            have hlt : j < t.children.length := (List.getElem?_eq_some_iff.1 hj).1
            have hsplit : t.children = t.children.take j ++ d :: t.children.drop (j + 1) := by
              rw [← (List.getElem?_eq_some_iff.1 hj).2, List.getElem_cons_drop, List.take_append_drop]
            have hlen : (t.children.take j).length = j := by simp; omega
            have hn' : (updateAt (fun _ => new) (j :: pos') t).children =
                t.children.take j ++ updateAt (fun _ => new) pos' d :: t.children.drop (j + 1) := by
              have := modify_split (updateAt (fun _ => new) pos') (t.children.take j) (t.children.drop (j + 1)) d
              rw [hlen, ← hsplit] at this
              exact this
            have hcom := updateAt_isComment new hm hr
            simp only [locate]
            by_cases hij : i = j
            · subst hij
              rw [hc] at hj; injection hj with hj; subst hj
              have hpos : pos' ≠ [] := by rintro rfl; exact ha (by simp)
              obtain ⟨k, ps, rfl⟩ := List.exists_cons_of_ne_nil hpos
              have hsl : sameLook c (updateAt (fun _ => new) (k :: ps) c) := ⟨rfl, rfl, hcom.symm⟩
              rw [childIdx_sameLook hsplit hn' hsl, hx]
              simp only
              have : (updateAt (fun _ => new) (i :: k :: ps) t).children[i]? = some (updateAt (fun _ => new) (k :: ps) c) := by
                simp only [updateAt, List.getElem?_modify, hc, if_true, Option.map_eq_map, Option.map_some]
              rw [this]
              simp only
              rw [ih hm (fun x hx => hv x (by simp [hx])) hp' (fun hp => ha (by simpa using hp))]
              rfl
            · have hci : childIdx (updateAt (fun _ => new) (j :: pos') t) part = some i := by
                refine childIdx_other hsplit hn' hcom ?_ ?_ hx (by rw [hlen]; exact hij)
                · cases pos' with
                  | nil => injection hm with hm; subst hm; exact hl
                  | cons _ _ => rfl
                · cases pos' with
                  | nil => injection hm with hm; subst hm; exact hv part (by simp)
                  | cons _ _ => exact id
              rw [hci]
              simp only
              have : (updateAt (fun _ => new) (j :: pos') t).children[i]? = some c := by
                simp only [updateAt, List.getElem?_modify, hc, Option.map_eq_map, Option.map_some, if_neg (Ne.symm hij)]
              rw [this]
              simp only [hp', Option.map_some]

theorem nodeAt_put {t m new : Node} {pos p : Pos} (hm : nodeAt t pos = some m) (h1 : ¬ pos <+: p) (h2 : ¬ p <+: pos) :
    nodeAt (updateAt (fun _ => new) pos t) p = nodeAt t p := by
  induction pos generalizing t p with
  | nil => exact absurd List.nil_prefix h1
  | cons i pos ih =>
    cases p with
    | nil => exact absurd List.nil_prefix h2
    | cons j p =>
      simp only [nodeAt] at hm
      cases hc : t.children[i]? with
      | none => rw [hc] at hm; cases hm
      | some c =>
        rw [hc] at hm
        simp only [updateAt, nodeAt, List.getElem?_modify]
        by_cases hij : i = j
        · subst hij
          simp only [hc, if_true, Option.map_eq_map, Option.map_some]
          exact ih hm (fun h => h1 (by simpa using h)) (fun h => h2 (by simpa using h))
        · simp only [if_neg hij]
          cases t.children[j]? <;> rfl

theorem Spec.NodeEdit.At.real {t : Node} {e : NodeEdit} (h : e.At t) : e.old.isComment = false := locate_real h.1 h.2.2.1 h.2.2.2

/-- One edit leaves the others possible. -/
theorem at_after {t : Node} {e e' : NodeEdit} (h : e.At t) (h' : e'.At t) (hk : e.new.isComment = false)
    (hl : e.new.listMember = e.old.listMember) (hn : ∀ c ∈ e'.comps, e.new.value = .str c → e.old.value = .str c)
    (ha : ¬ e.pos <+: e'.pos ∧ ¬ e'.pos <+: e.pos) : e'.At (putNode e.new e.pos t) := by
  rw [putNode_updateAt]
  refine ⟨h'.1, h'.2.1, ?_, ?_⟩
  · exact locate_put h.2.2.2 (by rw [hk, h.real]) hl hn h'.2.2.1 ha.1
  · rw [nodeAt_put h.2.2.2 ha.1 ha.2]; exact h'.2.2.2

theorem Spec.Independent.tail {e : NodeEdit} {es : List NodeEdit} (h : Independent (e :: es)) : Independent es :=
  ⟨(List.pairwise_cons.1 h.apart).2, fun x hx => h.kind x (by simp [hx]), fun x hx y hy => h.names x (by simp [hx]) y (by simp [hy])⟩

theorem Spec.Independent.rest {t : Node} {e : NodeEdit} {es : List NodeEdit} (h : Independent (e :: es)) (ha : ∀ x ∈ e :: es, x.At t) :
    ∀ x ∈ es, x.At (putNode e.new e.pos t) := by
  intro x hx
  exact at_after (ha e (by simp)) (ha x (by simp [hx])) (h.kind e (by simp)).1 (h.kind e (by simp)).2
    (h.names e (by simp) x (by simp [hx])) ((List.pairwise_cons.1 h.apart).1 x hx)

theorem putNode_comm {t : Node} {a b : Node} {p q : Pos} (h1 : ¬ p <+: q) (h2 : ¬ q <+: p) :
    putNode a p (putNode b q t) = putNode b q (putNode a p t) := by
  induction p generalizing q t with
  | nil => exact absurd List.nil_prefix h1
  | cons i p ih =>
    cases q with
    | nil => exact absurd List.nil_prefix h2
    | cons j q =>
      simp only [putNode]
      congr 1
      apply List.ext_getElem?
      intro k
      simp only [List.getElem?_mapIdx, Option.map_map]
      cases t.children[k]? with
      | none => rfl
      | some c =>
        simp only [Option.map_some, Function.comp_apply, Option.some.injEq]
        by_cases hi : k = i <;> by_cases hj : k = j
        · subst hi; subst hj
          simp only [if_true]
          exact ih (fun h => h1 (by simpa using h)) (fun h => h2 (by simpa using h))
        · simp only [if_pos hi, if_neg hj]
        · simp only [if_neg hi, if_pos hj]
        · simp only [if_neg hi, if_neg hj]

/-- The order of the edits does not matter. -/
theorem putNodes_perm {es es' : List NodeEdit} (hp : es.Perm es')
    (h : es.Pairwise fun a b => ¬ a.pos <+: b.pos ∧ ¬ b.pos <+: a.pos) (t : Node) : putNodes es t = putNodes es' t := by
  unfold putNodes
  induction hp generalizing t with
  | nil => rfl
  | cons x _ ih => exact ih (List.pairwise_cons.1 h).2 _
  | swap x y l =>
    simp only [List.foldl_cons]
    have := (List.pairwise_cons.1 h).1 x (by simp)
    rw [putNode_comm this.2 this.1]
  | trans h1 _ ih1 ih2 =>
    rw [ih1 h, ih2 (h1.pairwise h (fun hab => ⟨hab.2, hab.1⟩))]

theorem Spec.Independent.perm {es es' : List NodeEdit} (hp : es.Perm es') (h : Independent es) : Independent es' :=
  ⟨hp.pairwise h.apart (fun hab => ⟨hab.2, hab.1⟩), fun e he => h.kind e (hp.mem_iff.2 he),
    fun e he e' he' => h.names e (hp.mem_iff.2 he) e' (hp.mem_iff.2 he')⟩

end Crm

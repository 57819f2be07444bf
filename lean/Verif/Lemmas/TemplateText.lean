import Verif.Lemmas.TemplateExpr

/-! # Substituting the expressions of a text -/

namespace Crm
open Spec

/-- The characters between the braces. -/
def Spec.Seg.body : Seg → Str
  | .text _ => []
  | .hole w1 e w2 => w1 ++ e.src ++ w2

theorem hole_src (v : Schema) (w1 : Str) (e : JExpr) (w2 : Str) :
    (Seg.hole w1 e w2).src v = opening v ++ (Seg.hole w1 e w2).body ++ §"}}" := by simp [Seg.src, Seg.body]

theorem space_not_brace {w : Str} (h : ∀ c ∈ w, isSpace c = true) : ∀ c ∈ w, c ≠ '{' ∧ c ≠ '}' ∧ c ≠ '$' := by
  intro c hc
  have := h c hc
  refine ⟨?_, ?_, ?_⟩ <;> (rintro rfl; revert this; decide)

theorem body_chars {w1 : Str} {e : JExpr} {w2 : Str} (h : (Seg.hole w1 e w2).Ok) :
    ∀ c ∈ (Seg.hole w1 e w2).body, c ≠ '{' ∧ c ≠ '}' ∧ c ≠ '$' := by
  obtain ⟨hw1, he, hw2⟩ := h
  intro c hc
  simp only [Seg.body, List.mem_append] at hc
  rcases hc with (hc | hc) | hc
  · exact space_not_brace hw1 c hc
  · have := (expr_clean he).2.2 c hc
    exact ⟨this.1, this.2.1, this.2.2.1⟩
  · exact space_not_brace hw2 c hc

theorem source_cons (v : Schema) (s : Seg) (segs : List Seg) : source v (s :: segs) = s.src v ++ source v segs := by
  simp [source]

theorem source_append (v : Schema) (a b : List Seg) : source v (a ++ b) = source v a ++ source v b := by
  simp [source]

/-- In a V1 recipe no text starts with a brace. -/
theorem source_head_v1 (segs : List Seg) (h : ∀ s ∈ segs, s.Ok) (c : Char) (rest : Str) (hs : source .v1 segs = c :: rest) : c ≠ '{' := by
  induction segs with
  | nil => cases hs
  | cons s segs ih =>
    rw [source_cons] at hs
    cases s with
    | hole w1 e w2 =>
      rw [hole_src] at hs
      simp only [opening, List.cons_append, List.cons.injEq] at hs
      rw [← hs.1]; decide
    | text t =>
      cases t with
      | nil => exact ih (fun s hs => h s (by simp [hs])) (by simpa [Seg.src] using hs)
      | cons d t =>
        simp only [Seg.src, List.cons_append, List.cons.injEq] at hs
        have := h (.text (d :: t)) (by simp)
        rw [← hs.1]
        rintro rfl
        exact this (by simp)

/-- An opening does not start inside a plain text. -/
theorem opening_not_in_text (v : Schema) (y : Str) (hy : y ≠ []) (hb : '{' ∉ y) (segs : List Seg) (hs : ∀ s ∈ segs, s.Ok) :
    ¬ opening v <+: y ++ source v segs := by
  rintro ⟨q, hq⟩
  obtain ⟨d, y', rfl⟩ := List.exists_cons_of_ne_nil hy
  cases v with
  | v0 =>
    simp only [opening, List.cons_append, List.cons.injEq] at hq
    exact hb (by rw [hq.1]; simp)
  | v1 =>
    simp only [opening, List.cons_append, List.cons.injEq, List.nil_append] at hq
    cases y' with
    | nil =>
      rw [List.nil_append] at hq
      exact source_head_v1 segs hs '{' _ hq.2.symm rfl
    | cons d' y' =>
      simp only [List.cons_append, List.cons.injEq] at hq
      exact hb (by rw [hq.2.1]; simp)

/-- An opening starts nowhere inside an expression but at its start. -/
theorem opening_not_in_hole (v : Schema) (w1 : Str) (e : JExpr) (w2 : Str) (h : (Seg.hole w1 e w2).Ok) (rest x y : Str)
    (hxy : (Seg.hole w1 e w2).src v = x ++ y) (hx : x ≠ []) (hy : y ≠ []) : ¬ opening v <+: y ++ rest := by
  rintro ⟨q, hq⟩
  rw [hole_src] at hxy
  have hb := body_chars h
  generalize (Seg.hole w1 e w2).body = b at hxy hb
  have htail : ∀ c ∈ b ++ §"}}", c ≠ '{' ∧ c ≠ '$' := by
    intro c hc
    rcases List.mem_append.1 hc with hc | hc
    · exact ⟨(hb c hc).1, (hb c hc).2.2⟩
    · simp only [List.mem_cons, List.not_mem_nil, or_false, or_self] at hc
      rw [hc]; decide
  obtain ⟨d, y', rfl⟩ := List.exists_cons_of_ne_nil hy
  obtain ⟨a, x', rfl⟩ := List.exists_cons_of_ne_nil hx
  cases v with
  | v0 =>
    simp only [opening, List.cons_append, List.nil_append, List.cons.injEq] at hxy hq
    obtain ⟨_, hxy⟩ := hxy
    cases x' with
    | nil =>
      -- at the second brace: the next character would be a brace
      simp only [List.nil_append, List.cons.injEq] at hxy
      obtain ⟨_, hxy⟩ := hxy
      cases y' with
      | nil => simp at hxy
      | cons d' y' =>
        simp only [List.cons_append, List.cons.injEq] at hq
        exact (htail d' (by rw [hxy]; simp)).1 hq.2.1.symm
    | cons a' x' =>
      simp only [List.cons_append, List.cons.injEq] at hxy
      exact (htail d (by rw [hxy.2]; simp)).1 hq.1.symm
  | v1 =>
    simp only [opening, List.cons_append, List.nil_append, List.cons.injEq] at hxy hq
    have hd : d ∈ '{' :: '{' :: (b ++ §"}}") := by rw [hxy.2]; simp
    have hne : d = '$' := hq.1.symm
    simp only [List.mem_cons] at hd
    rcases hd with hd | hd | hd
    · rw [hne] at hd; revert hd; decide
    · rw [hne] at hd; revert hd; decide
    · exact (htail d hd).2 hne

theorem opening_prefix (v : Schema) (w1 : Str) (e : JExpr) (w2 : Str) : opening v <+: (Seg.hole w1 e w2).src v :=
  ⟨(Seg.hole w1 e w2).body ++ §"}}", by rw [hole_src]; simp⟩

theorem hole_ne_nil (v : Schema) (w1 : Str) (e : JExpr) (w2 : Str) : (Seg.hole w1 e w2).src v ≠ [] := by
  rw [hole_src]; cases v <;> simp [opening]

/-- One expression at the start of another text: it is the same. -/
theorem hole_prefix (v : Schema) (w1 : Str) (e : JExpr) (w2 : Str) (u1 : Str) (e' : JExpr) (u2 : Str) (h : (Seg.hole w1 e w2).Ok)
    (h' : (Seg.hole u1 e' u2).Ok) (rest : Str) (hp : (Seg.hole w1 e w2).src v <+: (Seg.hole u1 e' u2).src v ++ rest) :
    (Seg.hole w1 e w2).src v = (Seg.hole u1 e' u2).src v := by
  obtain ⟨q, hq⟩ := hp
  rw [hole_src, hole_src] at hq ⊢
  have hb := body_chars h
  have hb' := body_chars h'
  have h1 : (Seg.hole w1 e w2).body ++ '}' :: ('}' :: q) = (Seg.hole u1 e' u2).body ++ '}' :: ('}' :: rest) := by
    have : opening v ++ ((Seg.hole w1 e w2).body ++ '}' :: ('}' :: q)) = opening v ++ ((Seg.hole u1 e' u2).body ++ '}' :: ('}' :: rest)) := by
      simpa using hq
    exact List.append_cancel_left this
  rw [(cut_unique h1 (fun hm => (hb _ hm).2.1 rfl) (fun hm => (hb' _ hm).2.1 rfl)).1]

/-- Replace the expressions written as `m`. -/
def putIn (v : Schema) (m t : Str) (s : Seg) : Seg :=
  match s with
  | .text _ => s
  | .hole _ _ _ => if s.src v = m then .text t else s

theorem replaceAll_segs (v : Schema) (w1 : Str) (e : JExpr) (w2 : Str) (h : (Seg.hole w1 e w2).Ok) (t : Str) (segs : List Seg)
    (hs : ∀ s ∈ segs, s.Ok) :
    replaceAll ((Seg.hole w1 e w2).src v) t (source v segs) = source v (segs.map (putIn v ((Seg.hole w1 e w2).src v) t)) := by
  induction segs with
  | nil => rfl
  | cons s segs ih =>
    have hi := ih (fun s h => hs s (by simp [h]))
    rw [source_cons, List.map_cons, source_cons, ← hi]
    cases s with
    | text u =>
      have hu : '{' ∉ u := hs (.text u) (by simp)
      show replaceAll _ t (u ++ source v segs) = u ++ _
      apply replaceAll_skip
      intro x y hxy hy hp
      exact opening_not_in_text v y hy (fun hm => hu (by rw [hxy]; simp [hm])) segs (fun s h => hs s (by simp [h]))
        ((opening_prefix v w1 e w2).trans hp)
    | hole u1 e' u2 =>
      have hu : (Seg.hole u1 e' u2).Ok := hs _ (by simp)
      unfold putIn
      simp only
      by_cases he : (Seg.hole u1 e' u2).src v = (Seg.hole w1 e w2).src v
      · rw [if_pos he, he, replaceAll_here _ _ _ (hole_ne_nil v w1 e w2)]
        rfl
      · rw [if_neg he]
        apply replaceAll_skip
        intro x y hxy hy hp
        cases x with
        | nil =>
          rw [List.nil_append] at hxy
          rw [← hxy] at hp
          exact he (hole_prefix v w1 e w2 u1 e' u2 h hu _ hp).symm
        | cons a x =>
          exact opening_not_in_hole v u1 e' u2 hu _ (a :: x) y hxy (by simp) hy ((opening_prefix v w1 e w2).trans hp)

/-! ## The expressions that are found -/

/-- The regular expression of a recipe format. -/
def holeRx (v : Schema) : Rx :=
  .seq (Rx.lit (opening v)) (.seq (.star Rx.ws) (.seq Regex.jinjaVarFunction (.seq (.star Rx.ws) (Rx.lit §"}}"))))

theorem holeRx_v0 : Regex.jinjaV0Sub = holeRx .v0 := rfl
theorem holeRx_v1 : Regex.jinjaV1Sub = holeRx .v1 := rfl

theorem lang_holeRx {v : Schema} {bef t : Str} (h : (holeRx v).Lang bef t) : ∃ b, t = opening v ++ b ++ §"}}" ∧ '}' ∉ b := by
  obtain ⟨t1, r1, rfl, h1, t2, r2, rfl, h2, t3, r3, rfl, h3, t4, t5, rfl, h4, h5⟩ := h
  rw [Rx.lang_lit] at h1 h5
  have h2' := (Rx.lang_star_cls isSpace _ _).1 h2
  have h4' := (Rx.lang_star_cls isSpace _ _).1 h4
  have h3' := (Rx.lang_star_cls _ _ _).1 h3
  subst h1 h5
  refine ⟨t2 ++ t3 ++ t4, by simp, ?_⟩
  simp only [List.mem_append, not_or]
  refine ⟨⟨?_, ?_⟩, ?_⟩
  · intro hm; have := h2' _ hm; revert this; decide
  · intro hm; have := h3' _ hm; revert this; decide
  · intro hm; have := h4' _ hm; revert this; decide

theorem hole_match (v : Schema) (w1 : Str) (e : JExpr) (w2 : Str) (h : (Seg.hole w1 e w2).Ok) (bef rest : Str) :
    ∃ m, (holeRx v).matchAt bef ((Seg.hole w1 e w2).src v ++ rest) = some m ∧ m.text = (Seg.hole w1 e w2).src v ∧ m.post = rest := by
  have hbody := body_chars h
  obtain ⟨hw1, he, hw2⟩ := h
  have hsome : ((holeRx v).matchAt bef ((Seg.hole w1 e w2).src v ++ rest)).isSome = true := by
    rw [Rx.matchAt_isSome]
    refine ⟨_, rest, rfl, opening v, w1 ++ (e.src ++ (w2 ++ §"}}")), by simp [Seg.src], (Rx.lang_lit _ _ _).2 rfl, w1, _, rfl,
      (Rx.lang_star_cls _ _ _).2 hw1, e.src, _, rfl, (Rx.lang_star_cls _ _ _).2 (fun c hc => ((expr_clean he).2.2 c hc).2.2.2),
      w2, §"}}", rfl, (Rx.lang_star_cls _ _ _).2 hw2, (Rx.lang_lit _ _ _).2 rfl⟩
  obtain ⟨m, hm⟩ := Option.isSome_iff_exists.1 hsome
  obtain ⟨hl, hs⟩ := Rx.matchAt_lang hm
  obtain ⟨b, hb, hnb⟩ := lang_holeRx hl
  rw [hb, hole_src] at hs
  have h1 : (Seg.hole w1 e w2).body ++ '}' :: ('}' :: rest) = b ++ '}' :: ('}' :: m.post) := by
    have : opening v ++ ((Seg.hole w1 e w2).body ++ '}' :: ('}' :: rest)) = opening v ++ (b ++ '}' :: ('}' :: m.post)) := by
      simpa using hs
    exact List.append_cancel_left this
  obtain ⟨h2, h3⟩ := cut_unique h1 (fun hm => (hbody _ hm).2.1 rfl) hnb
  refine ⟨m, hm, by rw [hb, hole_src, h2], ?_⟩
  injection h3 with _ h3
  exact h3.symm

theorem findallGo_text (r : Rx) (bef a rest : Str)
    (h : ∀ x y, a = x ++ y → y ≠ [] → r.matchAt (x.reverse ++ bef) (y ++ rest) = none) :
    r.findallGo 0 bef (a ++ rest) = r.findallGo 0 (a.reverse ++ bef) rest := by
  induction a generalizing bef with
  | nil => rfl
  | cons c cs ih =>
    have := h [] (c :: cs) rfl (by simp)
    simp only [List.reverse_nil, List.nil_append, List.cons_append] at this
    rw [List.cons_append, Rx.findallGo, this]
    simp only
    rw [ih (c :: bef) (fun x y hxy hy => by
      have := h (c :: x) y (by simp [hxy]) hy
      simpa using this)]
    simp

theorem subGo_text (r : Rx) (f : RMatch → Str) (bef a rest : Str)
    (h : ∀ x y, a = x ++ y → y ≠ [] → r.matchAt (x.reverse ++ bef) (y ++ rest) = none) :
    r.subGo f 0 bef (a ++ rest) = a ++ r.subGo f 0 (a.reverse ++ bef) rest := by
  induction a generalizing bef with
  | nil => rfl
  | cons c cs ih =>
    have := h [] (c :: cs) rfl (by simp)
    simp only [List.reverse_nil, List.nil_append, List.cons_append] at this
    rw [List.cons_append, Rx.subGo, this]
    simp only
    rw [ih (c :: bef) (fun x y hxy hy => by
      have := h (c :: x) y (by simp [hxy]) hy
      simpa using this)]
    simp

theorem holeRx_start {v : Schema} {bef aft : Str} {m : RMatch} (h : (holeRx v).matchAt bef aft = some m) : opening v <+: aft := by
  obtain ⟨hl, hs⟩ := Rx.matchAt_lang h
  obtain ⟨b, hb, _⟩ := lang_holeRx hl
  exact ⟨b ++ §"}}" ++ m.post, by rw [hs, hb]; simp⟩

/-- The expressions of a text, as they are written. -/
def holes (v : Schema) : List Seg → List Str
  | [] => []
  | .text _ :: segs => holes v segs
  | .hole w1 e w2 :: segs => (Seg.hole w1 e w2).src v :: holes v segs

theorem findall_segs (v : Schema) (segs : List Seg) (hs : ∀ s ∈ segs, s.Ok) (bef : Str) :
    (holeRx v).findallGo 0 bef (source v segs) = holes v segs := by
  induction segs generalizing bef with
  | nil => rfl
  | cons s segs ih =>
    have hi := ih (fun s h => hs s (by simp [h]))
    rw [source_cons]
    cases s with
    | text u =>
      have hu : '{' ∉ u := hs (.text u) (by simp)
      rw [show (Seg.text u).src v = u from rfl, findallGo_text, hi, holes]
      intro x y hxy hy
      cases hm : (holeRx v).matchAt (x.reverse ++ bef) (y ++ source v segs) with
      | none => rfl
      | some m => exact absurd (holeRx_start hm) (opening_not_in_text v y hy (fun hm => hu (by rw [hxy]; simp [hm])) segs
          (fun s h => hs s (by simp [h])))
    | hole w1 e w2 =>
      obtain ⟨m, hm, ht, hp⟩ := hole_match v w1 e w2 (hs _ (by simp)) bef (source v segs)
      obtain ⟨c, cs, hc⟩ := List.exists_cons_of_ne_nil (hole_ne_nil v w1 e w2)
      rw [holes]
      rw [hc] at hm ht ⊢
      rw [List.cons_append] at hm ⊢
      rw [Rx.findallGo, hm]
      simp only [ht, List.length_cons, Nat.add_sub_cancel]
      rw [Rx.findallGo_skip _ _ _ _ _ rfl, hi]

/-! ## The loop over the expressions -/

theorem take2 {a t : Str} (ht : '{' ∉ t) : (a ++ t).take 2 = §"{{" ↔ a.take 2 = §"{{" := by
  match a with
  | [] =>
    cases t with
    | nil => simp
    | cons c t =>
      constructor
      · intro h
        simp only [List.nil_append, List.take_succ_cons, List.cons.injEq] at h
        exact absurd (by rw [h.1]; simp) ht
      · intro h; simp at h
  | [c] =>
    cases t with
    | nil => simp
    | cons d t =>
      constructor
      · intro h
        simp only [List.cons_append, List.nil_append, List.take_succ_cons, List.cons.injEq] at h
        exact absurd (by rw [h.2.1]; simp) ht
      · intro h; simp at h
  | c :: d :: a => simp

/-- A piece after the expressions in `done` were dealt with. -/
def settle (E : Env) (c : JinjaCtx) (done : List Str) (s : Seg) : Seg :=
  match s with
  | .text _ => s
  | .hole _ _ _ => if s.src c.schema ∈ done then (match stepValue E c (s.src c.schema) with | some t => .text t | none => s) else s

/-- The dollar sign in front. -/
def dollar (v : Schema) (t : Str) : List Seg := if v = .v0 ∧ t.take 2 = §"{{" then [.text §"$"] else []

theorem settle_ok (E : Env) (c : JinjaCtx) (done : List Str) (s : Seg) (h : s.Ok)
    (ht : ∀ w1 e w2, s = .hole w1 e w2 → e.Text E c.vars ∧ ∀ t, e.value E c.vars = some t → '{' ∉ t) : (settle E c done s).Ok := by
  cases s with
  | text t => exact h
  | hole w1 e w2 =>
    obtain ⟨h1, h2⟩ := ht w1 e w2 rfl
    unfold settle
    simp only
    split
    · rw [stepValue_hole E c w1 e w2 h h1]
      cases hv : e.value E c.vars with
      | none => exact h
      | some t => exact h2 t hv
    · exact h

theorem settle_put (E : Env) (c : JinjaCtx) (done : List Str) (m t : Str) (hm : stepValue E c m = some t) (s : Seg) :
    putIn c.schema m t (settle E c done s) = settle E c (m :: done) s := by
  cases s with
  | text u => rfl
  | hole w1 e w2 =>
    unfold settle
    simp only [List.mem_cons]
    by_cases he : (Seg.hole w1 e w2).src c.schema = m
    · rw [if_pos (Or.inl he), he, hm]
      simp only
      by_cases hd : m ∈ done
      · rw [if_pos hd]; rfl
      · rw [if_neg hd]
        unfold putIn
        simp only
        rw [if_pos he]
    · simp only [he, false_or]
      by_cases hd : (Seg.hole w1 e w2).src c.schema ∈ done
      · rw [if_pos hd]
        cases hv : stepValue E c ((Seg.hole w1 e w2).src c.schema) with
        | some u => rfl
        | none => simp only [putIn, if_neg he]
      · rw [if_neg hd]
        simp only [putIn, if_neg he]

theorem settle_none (E : Env) (c : JinjaCtx) (done : List Str) (m : Str) (hm : stepValue E c m = none) (s : Seg) :
    settle E c (m :: done) s = settle E c done s := by
  cases s with
  | text u => rfl
  | hole w1 e w2 =>
    unfold settle
    simp only [List.mem_cons]
    by_cases he : (Seg.hole w1 e w2).src c.schema = m
    · rw [if_pos (Or.inl he), he, hm]
      simp
    · simp only [he, false_or]

theorem putIn_dollar (v : Schema) (m t u : Str) : (dollar v u).map (putIn v m t) = dollar v u := by
  unfold dollar
  split <;> rfl

theorem dollar_ok (v : Schema) (u : Str) : ∀ s ∈ dollar v u, s.Ok := by
  intro s hs
  unfold dollar at hs
  split at hs
  · simp only [List.mem_singleton] at hs
    subst hs
    show '{' ∉ §"$"
    decide
  · cases hs

/-- A piece that was dealt with is written as its value. -/
theorem settle_src (E : Env) (c : JinjaCtx) (done : List Str) (s : Seg) (h : s.Ok)
    (ht : ∀ w1 e w2, s = .hole w1 e w2 → e.Text E c.vars ∧ ∀ t, e.value E c.vars = some t → '{' ∉ t)
    (hd : ∀ w1 e w2, s = .hole w1 e w2 → s.src c.schema ∈ done) : (settle E c done s).src c.schema = s.value E c.schema c.vars := by
  cases s with
  | text t => rfl
  | hole w1 e w2 =>
    unfold settle
    simp only
    rw [if_pos (hd w1 e w2 rfl), stepValue_hole E c w1 e w2 h (ht w1 e w2 rfl).1]
    simp only [Seg.value]
    cases e.value E c.vars <;> rfl

theorem loop_segs (E : Env) (c : JinjaCtx) (segs : List Seg) (hs : Template E c.vars segs) :
    ∀ (p q : List Seg) (done : List Str), segs = p ++ q → (∀ s ∈ p, ∀ w1 e w2, s = Seg.hole w1 e w2 → s.src c.schema ∈ done) →
      (holes c.schema q).foldl (renderJinjaStep E c)
        (source c.schema (dollar c.schema (p.map (Seg.value E c.schema c.vars)).flatten ++ segs.map (settle E c done))) =
      substituted E c.schema c.vars segs := by
  have hok := hs.1
  have htx : ∀ s ∈ segs, ∀ w1 e w2, s = Seg.hole w1 e w2 → e.Text E c.vars ∧ ∀ t, e.value E c.vars = some t → '{' ∉ t := by
    rintro s hm w1 e w2 rfl
    exact hs.2 w1 e w2 hm
  intro p q
  induction q generalizing p with
  | nil =>
    intro done hpq hd
    rw [List.append_nil] at hpq
    subst hpq
    have hsrc : source c.schema (segs.map (settle E c done)) = (segs.map (Seg.value E c.schema c.vars)).flatten := by
      unfold source
      rw [List.map_map]
      congr 1
      apply List.map_congr_left
      intro s hm
      exact settle_src E c done s (hok s hm) (htx s hm) (hd s hm)
    simp only [holes, List.foldl_nil]
    rw [source_append, hsrc]
    unfold substituted dollar
    simp only
    split <;> rfl
  | cons s q ih =>
    intro done hpq hd
    have hsm : s ∈ segs := by rw [hpq]; simp
    have hpq' : segs = (p ++ [s]) ++ q := by rw [hpq]; simp
    have hvp : ((p ++ [s]).map (Seg.value E c.schema c.vars)).flatten =
        (p.map (Seg.value E c.schema c.vars)).flatten ++ s.value E c.schema c.vars := by simp
    cases s with
    | text t =>
      have hdol : dollar c.schema ((p ++ [Seg.text t]).map (Seg.value E c.schema c.vars)).flatten =
          dollar c.schema (p.map (Seg.value E c.schema c.vars)).flatten := by
        rw [hvp]
        unfold dollar
        have := take2 (a := (p.map (Seg.value E c.schema c.vars)).flatten) (hok _ hsm : '{' ∉ t)
        simp only [Seg.value, this]
      have := ih (p ++ [Seg.text t]) done hpq' (by
        intro s hm w1 e w2 he
        rcases List.mem_append.1 hm with hm | hm
        · exact hd s hm w1 e w2 he
        · rw [List.mem_singleton.1 hm] at he; cases he)
      rw [hdol] at this
      exact this
    | hole w1 e w2 =>
      have hso := hok _ hsm
      obtain ⟨hte, htv⟩ := htx _ hsm w1 e w2 rfl
      have hstate : ∀ s ∈ dollar c.schema (p.map (Seg.value E c.schema c.vars)).flatten ++ segs.map (settle E c done), s.Ok := by
        intro s hm
        rcases List.mem_append.1 hm with hm | hm
        · exact dollar_ok _ _ s hm
        · obtain ⟨s', hs', rfl⟩ := List.mem_map.1 hm
          exact settle_ok E c done s' (hok s' hs') (htx s' hs')
      have hstep := renderJinjaStep_eq E c
        (source c.schema (dollar c.schema (p.map (Seg.value E c.schema c.vars)).flatten ++ segs.map (settle E c done)))
        ((Seg.hole w1 e w2).src c.schema)
      have hval := stepValue_hole E c w1 e w2 hso hte
      have hd' : ∀ s ∈ p ++ [Seg.hole w1 e w2], ∀ u1 e' u2, s = Seg.hole u1 e' u2 → s.src c.schema ∈ (Seg.hole w1 e w2).src c.schema :: done := by
        intro s hm u1 e' u2 he
        rcases List.mem_append.1 hm with hm | hm
        · exact List.mem_cons_of_mem _ (hd s hm u1 e' u2 he)
        · rw [List.mem_singleton.1 hm]; simp
      have hnext := ih (p ++ [Seg.hole w1 e w2]) ((Seg.hole w1 e w2).src c.schema :: done) hpq' hd'
      simp only [holes, List.foldl_cons]
      rw [hstep, ← hnext]
      congr 1
      cases hv : stepValue E c ((Seg.hole w1 e w2).src c.schema) with
      | some t =>
        simp only
        rw [replaceAll_segs c.schema w1 e w2 hso t _ hstate, List.map_append, putIn_dollar, List.map_map]
        have hdol : dollar c.schema ((p ++ [Seg.hole w1 e w2]).map (Seg.value E c.schema c.vars)).flatten =
            dollar c.schema (p.map (Seg.value E c.schema c.vars)).flatten := by
          rw [hvp]
          have hev : e.value E c.vars = some t := by rw [← hval, hv]
          unfold dollar
          have := take2 (a := (p.map (Seg.value E c.schema c.vars)).flatten) (htv t hev)
          simp only [Seg.value, hev, Option.getD_some, this]
        rw [hdol]
        congr 2
        apply List.map_congr_left
        intro s _
        exact settle_put E c done _ t hv s
      | none =>
        simp only
        have hset : segs.map (settle E c ((Seg.hole w1 e w2).src c.schema :: done)) = segs.map (settle E c done) := by
          apply List.map_congr_left
          intro s _
          exact settle_none E c done _ hv s
        rw [hset]
        have hev : e.value E c.vars = none := by rw [← hval, hv]
        have hval' : (Seg.hole w1 e w2).value E c.schema c.vars = (Seg.hole w1 e w2).src c.schema := by simp [Seg.value, hev]
        have hmem : (Seg.hole w1 e w2).src c.schema ∈ (Seg.hole w1 e w2).src c.schema :: done := by simp
        have hsegs : source c.schema (segs.map (settle E c done)) = (p.map (Seg.value E c.schema c.vars)).flatten ++
            ((Seg.hole w1 e w2).src c.schema ++ source c.schema (q.map (settle E c done))) := by
          rw [hpq, List.map_append, source_append, List.map_cons, source_cons]
          congr 1
          · unfold source
            rw [List.map_map]
            congr 1
            apply List.map_congr_left
            intro s hm
            exact settle_src E c done s (hok s (by rw [hpq]; simp [hm])) (htx s (by rw [hpq]; simp [hm])) (hd s hm)
          · congr 1
            unfold settle
            simp only
            split
            · rw [hv]
            · rfl
        cases hsch : c.schema with
        | v1 => simp [dollar]
        | v0 =>
          rw [hsch] at hsegs hvp hval' 
          rw [hvp, hval']
          generalize hP : (p.map (Seg.value E .v0 c.vars)).flatten = P at *
          have htwo : (P ++ (Seg.hole w1 e w2).src .v0).take 2 = (P ++ ((Seg.hole w1 e w2).src .v0 ++ source .v0 (q.map (settle E c done)))).take 2 := by
            have hlen : 2 ≤ (P ++ (Seg.hole w1 e w2).src .v0).length := by
              rw [hole_src]; simp [opening]; omega
            rw [← List.append_assoc, List.take_append_of_le_length hlen]
          by_cases hdp : P.take 2 = §"{{"
          · have h2 : (P ++ (Seg.hole w1 e w2).src .v0).take 2 = §"{{" := by
              rw [List.take_append_of_le_length]
              · exact hdp
              · have := congrArg List.length hdp
                simp at this; omega
            have h3 : dollar .v0 P = [.text §"$"] := by simp only [dollar, hdp]; rfl
            have h4 : dollar .v0 (P ++ (Seg.hole w1 e w2).src .v0) = [.text §"$"] := by simp only [dollar, h2]; rfl
            rw [h3, h4, if_neg]
            rintro ⟨_, h⟩
            simp only [source_append, source, List.map_cons, List.map_nil, List.flatten_cons, Seg.src, List.cons_append, List.nil_append,
              List.take_succ_cons, List.cons.injEq] at h
            exact absurd h.1 (by decide)
          · by_cases h2 : (P ++ (Seg.hole w1 e w2).src .v0).take 2 = §"{{"
            · have h3 : dollar .v0 P = [] := by simp [dollar, hdp]
              have h4 : dollar .v0 (P ++ (Seg.hole w1 e w2).src .v0) = [.text §"$"] := by simp only [dollar, h2]; rfl
              rw [h3, h4, List.nil_append, hsegs, ← htwo, if_pos ⟨rfl, h2⟩, source_append, hsegs]
              rfl
            · have h3 : dollar .v0 P = [] := by simp [dollar, hdp]
              have h4 : dollar .v0 (P ++ (Seg.hole w1 e w2).src .v0) = [] := by simp only [dollar, h2]; rfl
              rw [h3, h4, List.nil_append, hsegs, ← htwo, if_neg (fun h => h2 h.2)]

theorem settle_start (E : Env) (c : JinjaCtx) (s : Seg) : settle E c [] s = s := by
  cases s with
  | text t => rfl
  | hole w1 e w2 => simp [settle]

/-- The text handed to the loader. -/
theorem renderJinjaVars_segs (E : Env) (c : JinjaCtx) (segs : List Seg) (hs : Template E c.vars segs) :
    renderJinjaVars E c (source c.schema segs) = E.load (substituted E c.schema c.vars segs) := by
  have h := loop_segs E c segs hs [] segs [] rfl (by simp)
  have hset : segs.map (settle E c []) = segs := by
    conv => rhs; rw [← List.map_id segs]
    exact List.map_congr_left (fun s _ => settle_start E c s)
  have hdol : dollar c.schema (([] : List Seg).map (Seg.value E c.schema c.vars)).flatten = [] := by simp [dollar]
  rw [hset, hdol, List.nil_append] at h
  unfold renderJinjaVars Rx.findall
  cases hsch : c.schema with
  | v0 =>
    rw [hsch] at h
    simp only [holeRx_v0]
    rw [findall_segs .v0 segs hs.1 [], h]
  | v1 =>
    rw [hsch] at h
    simp only [holeRx_v1]
    rw [findall_segs .v1 segs hs.1 [], h]

end Crm

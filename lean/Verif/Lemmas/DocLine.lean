import Verif.Spec.Document
import Verif.Lemmas.OneLine
import Verif.Lemmas.RegexFirst

/-! # Reading one line of a document -/

namespace Crm
open Spec Doc

/-! ## Trailing comments -/

theorem lang_trailing {bef t : Str} (h : Regex.detectTrailingComment.Lang bef t) :
    ∃ u w, t = u ++ [w, '#'] ∧ isSpace w = true ∧ ∀ c ∈ u, isSpace c = true := by
  obtain ⟨a, b, rfl, ha, hb⟩ := h
  have hb' : b = ['#'] := (Rx.lang_chr '#' (a.reverse ++ bef) b).1 hb
  have ha' : a ≠ [] ∧ ∀ c ∈ a, isSpace c = true := (Rx.lang_plus_cls isSpace bef a).1 ha
  subst hb'
  have hd := List.dropLast_concat_getLast ha'.1
  refine ⟨a.dropLast, a.getLast ha'.1, ?_, ha'.2 _ (List.getLast_mem _), fun c hc => ha'.2 c (List.dropLast_subset _ hc)⟩
  conv => lhs; rw [← hd]
  simp

theorem getLast_nonspace {b : Str} (hb : strip b = b) (hne : b ≠ []) : isSpace (b.getLast hne) = false := by
  have h := hb ▸ strip_is_clean b
  exact h.2 _ (List.getLast?_eq_some_getLast hne)

/-- No trailing comment starts inside the text of a line. -/
theorem trailing_none {base rest x y : Str} (hb : strip base = base) (hn : NoTrail base) (hxy : base = x ++ y) (hy : y ≠ [])
    (bef : Str) : Regex.detectTrailingComment.matchAt bef (y ++ rest) = none := by
  apply Rx.matchAt_none
  intro t post ht hl
  obtain ⟨u, w, rfl, hw, hu⟩ := lang_trailing hl
  have hsp : ∀ c ∈ u ++ [w], isSpace c = true := by
    intro c hc
    rcases List.mem_append.1 hc with h | h
    · exact hu c h
    · rw [List.mem_singleton.1 h]; exact hw
  have ht' : y ++ rest = (u ++ [w]) ++ '#' :: post := by rw [ht]; simp
  rcases List.append_eq_append_iff.1 ht' with ⟨z, hz1, hz2⟩ | ⟨z, hz1, hz2⟩
  · -- the whole of `y` is white space
    have hlast : isSpace (y.getLast hy) = true := hsp _ (by rw [hz1]; exact List.mem_append_left _ (List.getLast_mem _))
    have hbn : base ≠ [] := by rw [hxy]; simp [hy]
    have h1 := getLast_nonspace hb hbn
    have h2 : base.getLast hbn = y.getLast hy := by
      simp only [hxy]
      exact List.getLast_append_right hy
    rw [h2, hlast] at h1
    cases h1
  · cases z with
    | nil =>
      have hlast : isSpace (y.getLast hy) = true := hsp _ (by
        have : y = u ++ [w] := by rw [hz1]; simp
        rw [← this]; exact List.getLast_mem _)
      have hbn : base ≠ [] := by rw [hxy]; simp [hy]
      have h1 := getLast_nonspace hb hbn
      have h2 : base.getLast hbn = y.getLast hy := by
        simp only [hxy]
        exact List.getLast_append_right hy
      rw [h2, hlast] at h1
      cases h1
    | cons d z =>
      simp only [List.cons_append, List.cons.injEq] at hz2
      obtain ⟨rfl, _⟩ := hz2
      have := hn (x ++ u) w z (by rw [hxy, hz1]; simp)
      rw [hw] at this
      cases this

theorem trailing_first (bef : Str) (t : Str) :
    Regex.detectTrailingComment.matchAt bef (§"  " ++ '#' :: t) =
      some ⟨bef.reverse, §"  #", t, [(2, bef.length + 2, §"#"), (1, bef.length + 1, §" "), (1, bef.length, §" ")]⟩ := by
  have e1 : isSpace ' ' = true := by decide
  have e2 : isSpace '#' = false := by decide
  simp [Rx.matchAt, Regex.detectTrailingComment, Rx.cat, Rx.plus, Rx.run, Rx.ws, Rx.chr, starRun, e1, e2]
  rw [show t.length + 1 + 1 + 1 - t.length = 3 by omega]
  rfl

/-- The comment of a line. -/
def lineComment (s : Str) : Str := match Regex.detectTrailingComment.search s with
  | some m => match m.groupStart 2 with | some i => s.drop i | none => []
  | none => []

theorem lineComment_head {base c : Str} (hb : strip base = base) (hc : IsTrail c) (hn : NoTrail base) :
    lineComment (withComment base c) = c := by
  unfold lineComment
  rcases hc with rfl | ⟨t, rfl⟩
  · have : Regex.detectTrailingComment.search (withComment base []) = none := by
      unfold Rx.search
      simp only [withComment, if_true]
      have h := Rx.searchFrom_skip Regex.detectTrailingComment [] base []
        (fun x y hxy hy => trailing_none hb hn hxy hy _)
      rw [List.append_nil] at h
      rw [h, Rx.searchFrom]
      simp [Rx.matchAt, Regex.detectTrailingComment, Rx.cat, Rx.plus, Rx.run, Rx.ws]
    rw [this]
  · have : Regex.detectTrailingComment.search (withComment base ('#' :: t)) =
        some ⟨base, §"  #", t, [(2, base.length + 2, §"#"), (1, base.length + 1, §" "), (1, base.length, §" ")]⟩ := by
      unfold Rx.search
      simp only [withComment, if_neg (List.cons_ne_nil _ _)]
      rw [List.append_assoc, Rx.searchFrom_skip Regex.detectTrailingComment [] base _
        (fun x y hxy hy => trailing_none hb hn hxy hy _)]
      have h := trailing_first (base.reverse ++ []) t
      simp only [List.append_nil, List.reverse_reverse, List.length_reverse] at h
      rw [List.append_nil]
      exact Rx.searchFrom_matchAt h
    rw [this]
    simp [RMatch.groupStart, withComment]

/-! ## The node of a line -/

/-- The node of a line that is not a comment line. -/
def nodeOf (comment : Str) : PyVal → Except PyErr Node
  | .dict [] => .error .indexError
  | .dict ((k, v) :: _) =>
    let children : List Node := if v = .none then [] else [{ value := v, comment := comment }]
    .ok { value := .str k, comment := comment, children := children, key := true }
  | .list [] => .error .indexError
  | .list (.dict [] :: _) => .error .indexError
  | .list (.dict ((k, v) :: _) :: _) =>
    let keyChildren : List Node := if v = .none then [] else [{ value := v, comment := comment }]
    let keyNode : Node := { value := .str k, comment := comment, children := keyChildren, key := true }
    .ok { comment := comment, listMember := true, children := [keyNode] }
  | .list (v :: _) => .ok { value := v, comment := comment, listMember := true }
  | v => .ok { value := v, comment := comment }

theorem parseLineNode_eq {E : Env} {s : Str} {v : PyVal} (h : parseYaml E s = .ok v) (hs : startsWith s §"#" = false) :
    parseLineNode E s = nodeOf (lineComment s) v := by
  unfold parseLineNode
  simp only [h, bind, Except.bind, hs, Bool.false_eq_true, if_false]
  cases v with
  | dict kvs => cases kvs <;> rfl
  | list xs =>
    cases xs with
    | nil => rfl
    | cons x xs => cases x with
      | dict kvs => cases kvs <;> rfl
      | _ => rfl
  | _ => rfl

theorem parseLineNode_comment {E : Env} {s : Str} {v : PyVal} (h : parseYaml E s = .ok v) (hs : startsWith s §"#" = true) :
    parseLineNode E s = .ok { comment := s } := by
  unfold parseLineNode
  simp only [h, bind, Except.bind, hs, if_true]

theorem startsWith_hash (t : Str) : startsWith ('#' :: t) §"#" = true := by simp [startsWith]

theorem startsWith_head {base c : Str} (hne : base ≠ []) (h : ∀ u, base ≠ '#' :: u) :
    startsWith (withComment base c) §"#" = false := by
  cases base with
  | nil => exact absurd rfl hne
  | cons d u =>
    have hd : ('#' == d) = false := by
      simp only [beq_eq_false_iff_ne, ne_eq]
      rintro rfl; exact h u rfl
    unfold withComment startsWith
    split <;> simp [List.isPrefixOf, hd]

/-! ## Multi-line markers -/

theorem marker_none {level : Nat} {head : Str} (h : NoMarker head) : Regex.multiline.matchStart (ind level ++ head) = none := by
  cases hm : Regex.multiline.matchStart (ind level ++ head) with
  | none => rfl
  | some m =>
    exfalso
    obtain ⟨t, post, ht, hl⟩ := (Rx.matchStart_iff _ _).1 (by rw [hm]; rfl)
    obtain ⟨a, w, x, b, rfl, hw, hsp, hx⟩ := lang_multiline hl
    have ht' : ind level ++ head = a ++ (':' :: w ++ x :: (b ++ post)) := by rw [ht]; simp
    rcases List.append_eq_append_iff.1 ht' with ⟨z, hz1, hz2⟩ | ⟨z, hz1, hz2⟩
    · have := h z w x (b ++ post) (by rw [hz2]; simp) hw hsp
      rcases hx with rfl | rfl
      · exact this.1 rfl
      · exact this.2 rfl
    · cases z with
      | nil =>
        have := h [] w x (b ++ post) (by rw [List.nil_append] at hz2; rw [← hz2]; simp) hw hsp
        rcases hx with rfl | rfl
        · exact this.1 rfl
        · exact this.2 rfl
      | cons d z =>
        simp only [List.cons_append, List.cons.injEq] at hz2
        have : ':' ∈ ind level := by rw [hz1, hz2.1]; simp
        rw [ind, List.mem_replicate] at this
        exact absurd this.2 (by decide)

/-- What stands behind a key with a multi-line text, from its colon. -/
def markerTail : Rx :=
  Rx.cat [Rx.chr ':', Rx.plus Rx.ws, .grp 1 (Rx.oneOf §"|>"), Rx.opt (.grp 2 (Rx.oneOf §"+-")),
    .grp 3 (.alt (.star Rx.ws) (Rx.cat [Rx.plus Rx.ws, Rx.chr '#', .star Rx.dot]))]

theorem lang_markerTail {bef t : Str} (h : markerTail.Lang bef t) :
    ∃ w m b, t = ':' :: w ++ m :: b ∧ w ≠ [] ∧ (∀ c ∈ w, isSpace c = true) ∧ (m = '|' ∨ m = '>') := by
  obtain ⟨t3, r3, rfl, h3, t4, r4, rfl, h4, t5, r5, rfl, h5, _⟩ := h
  rw [Rx.lang_chr] at h3
  have h4' := (Rx.lang_plus_cls isSpace _ _).1 h4
  obtain ⟨m, rfl, hm⟩ := (h5 : ∃ c, t5 = [c] ∧ _)
  subst h3
  refine ⟨t4, m, r5, by simp, h4'.1, h4'.2, ?_⟩
  simpa using hm

theorem cls_run_fail {p : Char → Bool} {s : MSt} (h : ∀ c, s.aft.head? = some c → p c = false) : (Rx.cls p).run s = [] := by
  unfold Rx.run
  cases ha : s.aft with
  | nil => rfl
  | cons c cs =>
    have := h c (by rw [ha]; rfl)
    simp [this]

/-- The marker that is found at a colon. -/
theorem markerTail_first (m : Multiline) (hm : m ∈ [Multiline.pipe, .pipePlus, .pipeMinus, .rAngle, .rAnglePlus, .rAngleMinus])
    (bef tail : Str) (ht : tail = [] ∨ ∃ t, tail = §"  " ++ t) :
    ∃ s, markerTail.first ⟨bef, §": " ++ m.text ++ tail, []⟩ = some s ∧
      ∀ pre text, multilineOf (((⟨pre, text, s.aft, s.caps⟩ : RMatch).group 1).getD []) ((⟨pre, text, s.aft, s.caps⟩ : RMatch).group 2) = m := by
  have sp : isSpace ' ' = true := by decide
  have s1 : isSpace '|' = false := by decide
  have s2 : isSpace '>' = false := by decide
  have hno : ∀ c, tail.head? = some c → (§"+-").contains c = false := by
    rcases ht with rfl | ⟨t, rfl⟩
    · simp
    · intro c hc
      simp only [List.cons_append, List.head?_cons, Option.some.injEq] at hc
      subst hc; decide
  -- the three characters in front, then the sign, then the rest
  have key : ∀ (x : Char) (sign : Str) (hx : isSpace x = false) (hx2 : (§"|>").contains x = true)
      (hsg : sign = [] ∨ ∃ g, sign = [g] ∧ (§"+-").contains g = true),
      ∃ s, markerTail.first ⟨bef, ':' :: ' ' :: x :: (sign ++ tail), []⟩ = some s ∧ ∃ rest3,
        s.caps = rest3 :: ((match sign with | [] => [] | g :: _ => [(2, bef.length + 3, [g])]) ++ [(1, bef.length + 2, [x])]) ∧
          rest3.1 = 3 := by
    intro x sign hx hx2 hsg
    have f1 : (Rx.chr ':').first ⟨bef, ':' :: ' ' :: x :: (sign ++ tail), []⟩ = some ⟨':' :: bef, ' ' :: x :: (sign ++ tail), []⟩ :=
      Rx.first_cls rfl (by simp)
    have f2 : (Rx.plus Rx.ws).first ⟨':' :: bef, ' ' :: x :: (sign ++ tail), []⟩ = some ⟨' ' :: ':' :: bef, x :: (sign ++ tail), []⟩ := by
      refine (Rx.first_plus rfl sp).trans ?_
      simp [MSt.eat, sp, hx]
    have f3 : (Rx.grp 1 (Rx.oneOf §"|>")).first ⟨' ' :: ':' :: bef, x :: (sign ++ tail), []⟩ =
        some ⟨x :: ' ' :: ':' :: bef, sign ++ tail, [(1, bef.length + 2, [x])]⟩ := by
      have hc : (Rx.oneOf §"|>").first ⟨' ' :: ':' :: bef, x :: (sign ++ tail), []⟩ =
          some ⟨x :: ' ' :: ':' :: bef, sign ++ tail, []⟩ := Rx.first_cls rfl hx2
      refine (Rx.first_grp 1 hc).trans ?_
      simp
    have f5 : ∀ s : MSt, ∃ s', (Rx.grp 3 (.alt (.star Rx.ws) (Rx.cat [Rx.plus Rx.ws, Rx.chr '#', .star Rx.dot]))).first s = some s' ∧
        ∃ r3, s'.caps = r3 :: s.caps ∧ r3.1 = 3 := by
      intro s
      have := Rx.first_alt_left (Rx.cat [Rx.plus Rx.ws, Rx.chr '#', .star Rx.dot]) (Rx.first_star isSpace s)
      exact ⟨_, Rx.first_grp 3 this, _, rfl, rfl⟩
    rcases hsg with rfl | ⟨g, rfl, hg⟩
    · have f4 : (Rx.opt (.grp 2 (Rx.oneOf §"+-"))).first ⟨x :: ' ' :: ':' :: bef, [] ++ tail, [(1, bef.length + 2, [x])]⟩ =
          some ⟨x :: ' ' :: ':' :: bef, [] ++ tail, [(1, bef.length + 2, [x])]⟩ := by
        refine (Rx.first_alt_right _ ?_).trans rfl
        simp only [Rx.run, List.map_eq_nil_iff]
        exact cls_run_fail (p := fun c => (§"+-").contains c) hno
      obtain ⟨s', h5, r3, h6, h7⟩ := f5 ⟨x :: ' ' :: ':' :: bef, [] ++ tail, [(1, bef.length + 2, [x])]⟩
      exact ⟨s', Rx.first_seq f1 (Rx.first_seq f2 (Rx.first_seq f3 (Rx.first_seq f4 h5))), r3, h6, h7⟩
    · have f4 : (Rx.opt (.grp 2 (Rx.oneOf §"+-"))).first ⟨x :: ' ' :: ':' :: bef, [g] ++ tail, [(1, bef.length + 2, [x])]⟩ =
          some ⟨g :: x :: ' ' :: ':' :: bef, tail, [(2, bef.length + 3, [g]), (1, bef.length + 2, [x])]⟩ := by
        refine Rx.first_alt_left _ ?_
        have hc : (Rx.oneOf §"+-").first ⟨x :: ' ' :: ':' :: bef, [g] ++ tail, [(1, bef.length + 2, [x])]⟩ =
          some ⟨g :: x :: ' ' :: ':' :: bef, tail, [(1, bef.length + 2, [x])]⟩ := Rx.first_cls rfl hg
        refine (Rx.first_grp 2 hc).trans ?_
        simp
      obtain ⟨s', h5, r3, h6, h7⟩ := f5 ⟨g :: x :: ' ' :: ':' :: bef, tail, [(2, bef.length + 3, [g]), (1, bef.length + 2, [x])]⟩
      exact ⟨s', Rx.first_seq f1 (Rx.first_seq f2 (Rx.first_seq f3 (Rx.first_seq f4 h5))), r3, h6, h7⟩
  have fin : ∀ (x : Char) (sign : Str), m.text = x :: sign → (isSpace x = false) → ((§"|>").contains x = true) →
      (sign = [] ∨ ∃ g, sign = [g] ∧ (§"+-").contains g = true) →
      multilineOf [x] (sign.head?.map fun g => [g]) = m →
      ∃ s, markerTail.first ⟨bef, §": " ++ m.text ++ tail, []⟩ = some s ∧
      ∀ pre text, multilineOf (((⟨pre, text, s.aft, s.caps⟩ : RMatch).group 1).getD []) ((⟨pre, text, s.aft, s.caps⟩ : RMatch).group 2) = m := by
    intro x sign hmt hx hx2 hsg hres
    obtain ⟨s, hs, r3, hcaps, hr3⟩ := key x sign hx hx2 hsg
    refine ⟨s, ?_, ?_⟩
    · rw [← hs, hmt]; simp
    · intro pre text
      simp only [RMatch.group, hcaps]
      have h31 : (r3.1 == 1) = false := by rw [hr3]; rfl
      have h32 : (r3.1 == 2) = false := by rw [hr3]; rfl
      rcases hsg with rfl | ⟨g, rfl, hg⟩
      · simpa [h31, h32] using hres
      · simpa [h31, h32] using hres
  simp only [List.mem_cons, List.not_mem_nil, or_false] at hm
  rcases hm with rfl | rfl | rfl | rfl | rfl | rfl
  · exact fin '|' [] rfl (by decide) (by decide) (Or.inl rfl) rfl
  · exact fin '|' §"+" rfl (by decide) (by decide) (Or.inr ⟨'+', rfl, by decide⟩) rfl
  · exact fin '|' §"-" rfl (by decide) (by decide) (Or.inr ⟨'-', rfl, by decide⟩) rfl
  · exact fin '>' [] rfl (by decide) (by decide) (Or.inl rfl) rfl
  · exact fin '>' §"+" rfl (by decide) (by decide) (Or.inr ⟨'+', rfl, by decide⟩) rfl
  · exact fin '>' §"-" rfl (by decide) (by decide) (Or.inr ⟨'-', rfl, by decide⟩) rfl

theorem takeWhile_ind (level : Nat) {x : Str} (h : ∀ c, x.head? = some c → isSpace c = false) :
    (ind level ++ x).takeWhile isSpace = ind level ∧ (ind level ++ x).dropWhile isSpace = x := by
  have hall : ∀ c ∈ ind level, isSpace c = true := by
    intro c hc
    rw [ind] at hc
    rw [(List.mem_replicate.1 hc).2]; rfl
  constructor
  · have : x.takeWhile isSpace = [] := by
      cases x with
      | nil => rfl
      | cons c cs => simp [h c rfl]
    have h2 : ∀ a : Str, (∀ c ∈ a, isSpace c = true) → (a ++ x).takeWhile isSpace = a := by
      intro a ha
      induction a with
      | nil => exact this
      | cons c a ih => simp [ha c (by simp), ih (fun d hd => ha d (by simp [hd]))]
    exact h2 _ hall
  · rw [dropWhile_all hall]
    exact lstrip_clean h

/-- The marker of the line of a multi-line text. -/
theorem marker_some {level : Nat} {k c : Str} {m : Multiline}
    (hm : m ∈ [Multiline.pipe, .pipePlus, .pipeMinus, .rAngle, .rAnglePlus, .rAngleMinus])
    (hplain : Plain (withComment (k ++ §": " ++ m.text) c)) (hc : NoMarker c) :
    ∃ r, Regex.multiline.matchStart (ind level ++ withComment (k ++ §": " ++ m.text) c) = some r ∧
      multilineOf ((r.group 1).getD []) (r.group 2) = m := by
  obtain ⟨tail, htail, hhead, htc⟩ : ∃ tail, (tail = [] ∨ ∃ t, tail = §"  " ++ t) ∧
      withComment (k ++ §": " ++ m.text) c = k ++ (§": " ++ m.text ++ tail) ∧ (tail = [] ∨ tail = §"  " ++ c) := by
    by_cases h : c = []
    · exact ⟨[], Or.inl rfl, by simp [withComment, h], Or.inl rfl⟩
    · exact ⟨§"  " ++ c, Or.inr ⟨c, rfl⟩, by simp [withComment, h], Or.inr rfl⟩
  rw [hhead] at hplain ⊢
  obtain ⟨s, hs, hres⟩ := markerTail_first m hm (k.reverse ++ (ind level).reverse) tail htail
  have hclean := (hplain.trimmed ▸ strip_is_clean (k ++ (§": " ++ m.text ++ tail)) : Clean _)
  have hline : ∀ d ∈ k ++ (§": " ++ m.text ++ tail), (d != '\n') = true := by
    intro d hd
    have := hplain.oneLine d hd
    simp only [bne_iff_ne, ne_eq]
    rintro rfl
    revert this; decide
  have hws := takeWhile_ind level hclean.1
  have f1 : (Rx.star Rx.ws).first ⟨[], ind level ++ (k ++ (§": " ++ m.text ++ tail)), []⟩ =
      some ⟨(ind level).reverse, k ++ (§": " ++ m.text ++ tail), []⟩ := by
    refine (Rx.first_star isSpace _).trans ?_
    simp only [hws.1, hws.2, MSt.eat, List.append_nil]
  have f2 : (Rx.seq (.star Rx.dot) markerTail).first ⟨(ind level).reverse, k ++ (§": " ++ m.text ++ tail), []⟩ = some s := by
    refine Rx.first_star_seq (t := k) (rest := §": " ++ m.text ++ tail) rfl (fun d hd => hline d (List.mem_append_left _ hd)) hs ?_
    intro x y hx hxy
    apply Rx.run_nil
    intro t rest ht hl
    obtain ⟨w, mm, b, rfl, hw, hwsp, hmm⟩ := lang_markerTail hl
    -- a second marker behind the first one would have to be in the comment
    have ht' : y = (':' :: w ++ mm :: b) ++ rest := ht
    rw [ht'] at hxy
    have hcolon : ∀ z, m.text ++ tail = z → (§": " ++ m.text ++ tail) = ':' :: ' ' :: z := by
      rintro z rfl; simp
    have e := hcolon _ rfl
    rw [hxy] at e
    -- strip the first colon
    obtain ⟨d, x', rfl⟩ := List.exists_cons_of_ne_nil hx
    simp only [List.cons_append, List.cons.injEq] at e
    obtain ⟨_, e⟩ := e
    have hsep : ∀ (p : Str) (q : Str), ':' ∉ p → x' ++ (':' :: (w ++ mm :: (b ++ rest))) = p ++ q →
        ∃ x'', q = x'' ++ (':' :: (w ++ mm :: (b ++ rest))) := by
      intro p q hp h
      rcases List.append_eq_append_iff.1 h with ⟨z, hz1, hz2⟩ | ⟨z, hz1, hz2⟩
      · -- `p` is longer than what stands in front of the colon
        cases z with
        | nil => exact ⟨[], by simpa using hz2.symm⟩
        | cons d z =>
          simp only [List.cons_append, List.cons.injEq] at hz2
          exact absurd (by rw [hz1, ← hz2.1]; simp) hp
      · exact ⟨z, hz2⟩
    have hp : ':' ∉ ' ' :: m.text := by
      simp only [List.mem_cons, List.not_mem_nil, or_false] at hm
      rcases hm with rfl | rfl | rfl | rfl | rfl | rfl <;> decide
    obtain ⟨x2, h2⟩ := hsep (' ' :: m.text) tail hp (by
      have : x' ++ (':' :: (w ++ mm :: (b ++ rest))) = ' ' :: (m.text ++ tail) := by simpa using e
      rw [this]; simp)
    rcases htc with h0 | h0
    · rw [h0] at h2; simp at h2
    · rw [h0] at h2
      obtain ⟨x3, h3⟩ : ∃ x3, c = x3 ++ (':' :: (w ++ mm :: (b ++ rest))) := by
        have hsep2 : ∀ x2 : Str, §"  " ++ c = x2 ++ (':' :: (w ++ mm :: (b ++ rest))) →
            ∃ x3, c = x3 ++ (':' :: (w ++ mm :: (b ++ rest))) := by
          intro x2 h
          cases x2 with
          | nil => simp at h
          | cons d x2 =>
            cases x2 with
            | nil => simp at h
            | cons d' x2 => exact ⟨x2, by simp only [List.cons_append, List.nil_append, List.cons.injEq] at h; exact h.2.2⟩
        exact hsep2 x2 h2
      have := hc x3 w mm (b ++ rest) (by rw [h3]; simp) hw hwsp
      rcases hmm with rfl | rfl
      · exact this.1 rfl
      · exact this.2 rfl
  have f3 : Regex.multiline.first ⟨[], ind level ++ (k ++ (§": " ++ m.text ++ tail)), []⟩ = some s := Rx.first_seq f1 f2
  exact ⟨_, Rx.matchAt_first' f3, hres _ _⟩

/-! ## Indentation -/

theorem numTabSpaces_ind (level : Nat) {x : Str} (h : strip x = x) : numTabSpaces (ind level ++ x) = 2 * level ∨ x = [] := by
  by_cases hx : x = []
  · exact Or.inr hx
  · refine Or.inl ?_
    have h0 := trimmed_indent h hx
    have key : ∀ n, numTabSpaces (List.replicate n ' ' ++ x) = n := by
      intro n
      induction n with
      | zero => simpa using h0
      | succ n ih => simp [List.replicate_succ, numTabSpaces, ih]
    exact key _

theorem strip_ind (level : Nat) {x : Str} (h : strip x = x) : strip (ind level ++ x) = x := by
  have := strip_around (ind level) x [] (fun c hc => by
    rw [ind] at hc
    rw [(List.mem_replicate.1 hc).2]; rfl) (by simp) (h ▸ strip_is_clean x)
  simpa using this

end Crm

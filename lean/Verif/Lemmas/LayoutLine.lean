import Verif.Spec.Layout
import Verif.Lemmas.DocText

/-! # Reading one line of a freely laid out file -/

namespace Crm
open Spec Doc

/-! ## Trailing comments -/

theorem starRun_spaces (t : Str) : ∀ (w : Str) (n : Nat) (bef : Str) (caps : List (Nat × Nat × Str)), Blank w → w.length ≤ n →
    ∃ caps', (starRun (Rx.grp 1 Rx.ws).run n ⟨bef, w ++ '#' :: t, caps⟩).head? = some ⟨w.reverse ++ bef, '#' :: t, caps'⟩ := by
  intro w
  induction w with
  | nil =>
    intro n bef caps _ _
    have e : isSpace '#' = false := by decide
    cases n with
    | zero => exact ⟨caps, rfl⟩
    | succ n => exact ⟨caps, by simp [starRun, Rx.run, Rx.ws, e]⟩
  | cons c w ih =>
    intro n bef caps hw hn
    have hc : isSpace c = true := hw c (by simp)
    cases n with
    | zero => simp at hn
    | succ n =>
      obtain ⟨caps', h⟩ := ih n (c :: bef) ((1, bef.length, [c]) :: caps) (fun x hx => hw x (by simp [hx])) (by simpa using hn)
      refine ⟨caps', ?_⟩
      simp only [starRun, Rx.run, Rx.ws, List.cons_append, hc, if_true, List.map_cons, List.map_nil, List.flatMap_cons, List.flatMap_nil,
        List.append_nil, List.length_cons]
      rw [if_pos (by omega), List.head?_append]
      simp only [Rx.run, Rx.ws] at h
      have e : (List.take (bef.length + 1 - bef.length) (c :: bef)).reverse = [c] := by
        rw [show bef.length + 1 - bef.length = 1 by omega]; rfl
      rw [e, h]
      simp

theorem trailing_found (bef w t : Str) (hne : w ≠ []) (hw : Blank w) :
    ∃ m, Regex.detectTrailingComment.matchAt bef (w ++ '#' :: t) = some m ∧ m.groupStart 2 = some (bef.length + w.length) := by
  cases w with
  | nil => exact absurd rfl hne
  | cons c w =>
    have hc : isSpace c = true := hw c (by simp)
    have hw' : Blank w := fun x hx => hw x (by simp [hx])
    obtain ⟨caps', h⟩ := starRun_spaces t w (w ++ '#' :: t).length (c :: bef) [(1, bef.length, [c])] hw' (by simp)
    have f0 : (Rx.grp 1 Rx.ws).first ⟨bef, c :: (w ++ '#' :: t), []⟩ = some ⟨c :: bef, w ++ '#' :: t, [(1, bef.length, [c])]⟩ := by
      have := Rx.first_cls (p := isSpace) (s := ⟨bef, c :: (w ++ '#' :: t), []⟩) rfl hc
      refine (Rx.first_grp 1 this).trans ?_
      simp [MSt.eat]
    have f1 : (Rx.plus (.grp 1 Rx.ws)).first ⟨bef, c :: (w ++ '#' :: t), []⟩ = some ⟨w.reverse ++ c :: bef, '#' :: t, caps'⟩ :=
      Rx.first_seq f0 h
    have f2 : (Rx.grp 2 (Rx.chr '#')).first ⟨w.reverse ++ c :: bef, '#' :: t, caps'⟩ =
        some ⟨'#' :: (w.reverse ++ c :: bef), t, (2, (w.reverse ++ c :: bef).length, §"#") :: caps'⟩ := by
      have := Rx.first_cls (p := (· == '#')) (s := ⟨w.reverse ++ c :: bef, '#' :: t, caps'⟩) rfl (by simp)
      refine (Rx.first_grp 2 this).trans ?_
      have e : (List.take (('#' :: (w.reverse ++ c :: bef)).length - (w.reverse ++ c :: bef).length) ('#' :: (w.reverse ++ c :: bef))).reverse = §"#" := by
        rw [show ('#' :: (w.reverse ++ c :: bef)).length - (w.reverse ++ c :: bef).length = 1 by simp]; rfl
      simp only [MSt.eat, List.reverse_cons, List.reverse_nil, List.nil_append, List.cons_append] at e ⊢
      rw [e]
    have := Rx.matchAt_first' (Rx.first_seq f1 f2)
    refine ⟨_, this, ?_⟩
    simp [RMatch.groupStart]
    omega

/-- The comment that is found in a line. -/
theorem lineComment_free {base body c : Str} (h : Commented base body c) (hb : strip base = base) (hn : NoTrail base) :
    lineComment body = c := by
  rcases h with ⟨rfl, rfl⟩ | ⟨w, t, rfl, hne, hw, rfl⟩
  · have := lineComment_head hb (Or.inl rfl) hn
    simpa [withComment] using this
  · unfold lineComment
    obtain ⟨m, h1, h2⟩ := trailing_found base.reverse w t hne hw
    have hs : Regex.detectTrailingComment.search (base ++ w ++ '#' :: t) = some m := by
      unfold Rx.search
      rw [List.append_assoc, Rx.searchFrom_skip Regex.detectTrailingComment [] base _ (fun x y hxy hy => trailing_none hb hn hxy hy _),
        List.append_nil]
      exact Rx.searchFrom_matchAt h1
    rw [hs]
    simp only [h2, List.length_reverse]
    rw [← List.length_append, List.drop_left]

theorem startsWith_free {base body c : Str} (h : Commented base body c) (hne : base ≠ []) (hh : ∀ u, base ≠ '#' :: u) :
    startsWith body §"#" = false := by
  have key : ∀ r, startsWith (base ++ r) §"#" = false := by
    intro r
    cases base with
    | nil => exact absurd rfl hne
    | cons d u =>
      have hd : ('#' == d) = false := by
        simp only [beq_eq_false_iff_ne, ne_eq]
        rintro rfl; exact hh u rfl
      simp [startsWith, List.isPrefixOf, hd]
  rcases h with ⟨rfl, rfl⟩ | ⟨w, t, rfl, _, _, rfl⟩
  · simpa using key []
  · rw [List.append_assoc]; exact key _

theorem body_ne_nil {base body c : Str} (h : Commented base body c) (hne : base ≠ []) : body ≠ [] := by
  rcases h with ⟨rfl, rfl⟩ | ⟨w, t, rfl, _, _, rfl⟩
  · exact hne
  · simp

/-! ## The node of a line -/

theorem free_parse {E : Env} {d : Doc} {body : Str} (h : d.Ok E) (hm : ∀ k m c b, d ≠ .multi k m c b) (hf : FreeHead E d body) :
    parseLineNode E body = .ok (lineNode d) ∧ body ≠ [] ∧ strip body = body ∧ NoMarker body := by
  cases hf with
  | comment hu ht hn hr =>
    obtain ⟨u, rfl⟩ := hu
    obtain ⟨v, hv⟩ := hr
    exact ⟨by rw [parseLineNode_comment hv (startsWith_hash u)]; rfl, by simp, ht, hn⟩
  | marker => exact absurd rfl (hm _ _ _ _)
  | @entry d base body hd _ hc hne hb hn hh ht hnm hr =>
    refine ⟨?_, body_ne_nil hc hne, ht, hnm⟩
    have hs := startsWith_free hc hne hh
    have hl := lineComment_free hc hb hn
    cases d with
    | comment t => cases hd
    | multi k m c b => exact absurd rfl (hm _ _ _ _)
    | empty k c =>
      simp only [Reads] at hr
      rw [parseLineNode_eq hr hs, hl]; rfl
    | scalar k vt v c =>
      simp only [Reads] at hr
      rw [parseLineNode_eq hr hs, hl]
      simp only [nodeOf, h.2.2.2.1, if_false]
      rfl
    | block k c cs =>
      simp only [Reads] at hr
      rw [parseLineNode_eq hr hs, hl]; rfl
    | item vt v c =>
      simp only [Reads] at hr
      rw [parseLineNode_eq hr hs, hl]
      have hd := h.2.2.2.1
      cases v <;> first | rfl | exact absurd rfl (hd _)
    | elem first rest =>
      obtain ⟨_, _, _, hcan, hlead, _⟩ := h
      cases first with
      | scalar k vt v c =>
        simp only [Reads] at hr
        rw [parseLineNode_eq hr hs, hl]
        simp only [nodeOf, hlead.1, if_false]
        rfl
      | block k c cs =>
        simp only [Reads] at hr
        rw [parseLineNode_eq hr hs, hl]; rfl
      | _ => cases hcan

/-! ## White space around a line -/

theorem blank_notMem {l : Str} (h : Blank l) {c : Char} (hc : isSpace c = false) : c ∉ l := by
  intro hm
  rw [h c hm] at hc
  cases hc

theorem append_cut {body gap p b : Str} {x : Char} (h : body ++ gap = p ++ x :: b) (hx : x ∉ gap) : ∃ z, body = p ++ x :: z := by
  rcases List.append_eq_append_iff.1 h with ⟨z, _, hz2⟩ | ⟨z, hz1, hz2⟩
  · exact absurd (by rw [hz2]; simp) hx
  · cases z with
    | nil => exact absurd (by rw [List.nil_append] at hz2; rw [← hz2]; simp) hx
    | cons y z =>
      simp only [List.cons_append, List.cons.injEq] at hz2
      exact ⟨z, by rw [hz1, hz2.1]⟩

theorem noMarker_gap {body gap : Str} (h : NoMarker body) (hg : Blank gap) : NoMarker (body ++ gap) := by
  intro a w m b he hw hs
  constructor
  · rintro rfl
    obtain ⟨z, hz⟩ := append_cut he (blank_notMem hg (show isSpace '|' = false by decide))
    exact (h a w '|' z hz hw hs).1 rfl
  · rintro rfl
    obtain ⟨z, hz⟩ := append_cut he (blank_notMem hg (show isSpace '>' = false by decide))
    exact (h a w '>' z hz hw hs).2 rfl

theorem ind_blank (level : Nat) : Blank (ind level) := by
  intro c hc
  rw [ind] at hc
  rw [(List.mem_replicate.1 hc).2]; rfl

theorem strip_free (level : Nat) {body gap : Str} (h : strip body = body) (hg : Blank gap) : strip (ind level ++ body ++ gap) = body :=
  strip_around (ind level) body gap (ind_blank level) hg (h ▸ strip_is_clean body)

theorem strip_blank {l : Str} (h : Blank l) : strip l = [] := by
  have := strip_around l [] [] h (by simp) ⟨by simp, by simp⟩
  simpa using this

theorem numTabSpaces_replicate (n : Nat) (x : Str) : numTabSpaces (List.replicate n ' ' ++ x) = n + numTabSpaces x := by
  induction n with
  | zero => simp
  | succ n ih => simp [List.replicate_succ, numTabSpaces, ih]; omega

theorem numTabSpaces_free (level : Nat) {body gap : Str} (h : strip body = body) (hne : body ≠ []) :
    numTabSpaces (ind level ++ body ++ gap) = 2 * level := by
  have h0 := trimmed_indent h hne
  have h1 : numTabSpaces (body ++ gap) = 0 := by
    cases body with
    | nil => exact absurd rfl hne
    | cons c b =>
      simp only [numTabSpaces] at h0
      simp only [List.cons_append, numTabSpaces]
      split
      · rename_i hc; rw [if_pos hc] at h0; omega
      · rfl
  rw [ind, List.append_assoc, numTabSpaces_replicate, h1]
  rfl

/-! ## Multi-line markers -/

theorem append_cut_left {p q a b : Str} {x : Char} (h : p ++ q = a ++ x :: b) (hx : x ∉ p) : ∃ z, q = z ++ x :: b := by
  rcases List.append_eq_append_iff.1 h with ⟨z, _, hz2⟩ | ⟨z, hz1, hz2⟩
  · exact ⟨z, hz2⟩
  · cases z with
    | nil => exact ⟨[], by simpa using hz2.symm⟩
    | cons y z =>
      simp only [List.cons_append, List.cons.injEq] at hz2
      exact absurd (by rw [hz1, ← hz2.1]; simp) hx

theorem noMarker_after {w z : Str} (h : NoMarker z) (hw : Blank w) : NoMarker (w ++ z) := by
  intro a v m b he hv hs
  rw [List.append_assoc] at he
  obtain ⟨y, hy⟩ := append_cut_left he (blank_notMem hw (show isSpace ':' = false by decide))
  exact h y v m b (by rw [hy]; simp) hv hs

/-- The marker that is found at a colon. -/
theorem markerTail_free (m : Multiline) (hm : m ∈ [Multiline.pipe, .pipePlus, .pipeMinus, .rAngle, .rAnglePlus, .rAngleMinus])
    (bef w tail : Str) (hw : Blank w) (hwn : w ≠ []) (hno : ∀ c, tail.head? = some c → (§"+-").contains c = false) :
    ∃ s, markerTail.first ⟨bef, ':' :: (w ++ (m.text ++ tail)), []⟩ = some s ∧
      ∀ pre text, multilineOf (((⟨pre, text, s.aft, s.caps⟩ : RMatch).group 1).getD []) ((⟨pre, text, s.aft, s.caps⟩ : RMatch).group 2) = m := by
  have key : ∀ (x : Char) (sign : Str) (hx : isSpace x = false) (hx2 : (§"|>").contains x = true)
      (hsg : sign = [] ∨ ∃ g, sign = [g] ∧ (§"+-").contains g = true),
      ∃ s, markerTail.first ⟨bef, ':' :: (w ++ (x :: (sign ++ tail))), []⟩ = some s ∧ ∃ rest3 a1 a2,
        s.caps = rest3 :: ((match sign with | [] => [] | g :: _ => [(2, a2, [g])]) ++ [(1, a1, [x])]) ∧ rest3.1 = 3 := by
    intro x sign hx hx2 hsg
    have f1 : (Rx.chr ':').first ⟨bef, ':' :: (w ++ (x :: (sign ++ tail))), []⟩ = some ⟨':' :: bef, w ++ (x :: (sign ++ tail)), []⟩ :=
      Rx.first_cls rfl (by simp)
    have f2 : (Rx.plus Rx.ws).first ⟨':' :: bef, w ++ (x :: (sign ++ tail)), []⟩ =
        some ⟨w.reverse ++ ':' :: bef, x :: (sign ++ tail), []⟩ := by
      obtain ⟨d, w', rfl⟩ := List.exists_cons_of_ne_nil hwn
      refine (Rx.first_plus rfl (hw d (by simp))).trans ?_
      have e1 : ((d :: w') ++ x :: (sign ++ tail)).takeWhile isSpace = d :: w' := by
        rw [List.takeWhile_append_of_pos hw]; simp [hx]
      have e2 : ((d :: w') ++ x :: (sign ++ tail)).dropWhile isSpace = x :: (sign ++ tail) := by
        rw [List.dropWhile_append_of_pos hw]; simp [hx]
      simp only [MSt.eat, e1, e2]
    have f3 : (Rx.grp 1 (Rx.oneOf §"|>")).first ⟨w.reverse ++ ':' :: bef, x :: (sign ++ tail), []⟩ =
        some ⟨x :: (w.reverse ++ ':' :: bef), sign ++ tail, [(1, (w.reverse ++ ':' :: bef).length, [x])]⟩ := by
      have hc : (Rx.oneOf §"|>").first ⟨w.reverse ++ ':' :: bef, x :: (sign ++ tail), []⟩ =
          some ⟨x :: (w.reverse ++ ':' :: bef), sign ++ tail, []⟩ := Rx.first_cls rfl hx2
      refine (Rx.first_grp 1 hc).trans ?_
      simp only [Option.some.injEq, MSt.mk.injEq, List.cons.injEq, Prod.mk.injEq, true_and, and_true]
      rw [show (x :: (w.reverse ++ ':' :: bef)).length - (w.reverse ++ ':' :: bef).length = 1 by simp]; rfl
    have f5 : ∀ s : MSt, ∃ s', (Rx.grp 3 (.alt (.star Rx.ws) (Rx.cat [Rx.plus Rx.ws, Rx.chr '#', .star Rx.dot]))).first s = some s' ∧
        ∃ r3, s'.caps = r3 :: s.caps ∧ r3.1 = 3 := by
      intro s
      have := Rx.first_alt_left (Rx.cat [Rx.plus Rx.ws, Rx.chr '#', .star Rx.dot]) (Rx.first_star isSpace s)
      exact ⟨_, Rx.first_grp 3 this, _, rfl, rfl⟩
    generalize w.reverse ++ ':' :: bef = B at f2 f3
    rcases hsg with rfl | ⟨g, rfl, hg⟩
    · have f4 : (Rx.opt (.grp 2 (Rx.oneOf §"+-"))).first ⟨x :: B, [] ++ tail, [(1, B.length, [x])]⟩ =
          some ⟨x :: B, [] ++ tail, [(1, B.length, [x])]⟩ := by
        refine (Rx.first_alt_right _ ?_).trans rfl
        simp only [Rx.run, List.map_eq_nil_iff]
        exact cls_run_fail (p := fun c => (§"+-").contains c) hno
      obtain ⟨s', h5, r3, h6, h7⟩ := f5 ⟨x :: B, [] ++ tail, [(1, B.length, [x])]⟩
      exact ⟨s', Rx.first_seq f1 (Rx.first_seq f2 (Rx.first_seq f3 (Rx.first_seq f4 h5))), r3, B.length, 0, h6, h7⟩
    · have f4 : (Rx.opt (.grp 2 (Rx.oneOf §"+-"))).first ⟨x :: B, [g] ++ tail, [(1, B.length, [x])]⟩ =
          some ⟨g :: x :: B, tail, [(2, B.length + 1, [g]), (1, B.length, [x])]⟩ := by
        refine Rx.first_alt_left _ ?_
        have hc : (Rx.oneOf §"+-").first ⟨x :: B, [g] ++ tail, [(1, B.length, [x])]⟩ =
          some ⟨g :: x :: B, tail, [(1, B.length, [x])]⟩ := Rx.first_cls rfl hg
        refine (Rx.first_grp 2 hc).trans ?_
        simp
      obtain ⟨s', h5, r3, h6, h7⟩ := f5 ⟨g :: x :: B, tail, [(2, B.length + 1, [g]), (1, B.length, [x])]⟩
      exact ⟨s', Rx.first_seq f1 (Rx.first_seq f2 (Rx.first_seq f3 (Rx.first_seq f4 h5))), r3, B.length, B.length + 1, h6, h7⟩
  have fin : ∀ (x : Char) (sign : Str), m.text = x :: sign → (isSpace x = false) → ((§"|>").contains x = true) →
      (sign = [] ∨ ∃ g, sign = [g] ∧ (§"+-").contains g = true) →
      multilineOf [x] (sign.head?.map fun g => [g]) = m →
      ∃ s, markerTail.first ⟨bef, ':' :: (w ++ (m.text ++ tail)), []⟩ = some s ∧
      ∀ pre text, multilineOf (((⟨pre, text, s.aft, s.caps⟩ : RMatch).group 1).getD []) ((⟨pre, text, s.aft, s.caps⟩ : RMatch).group 2) = m := by
    intro x sign hmt hx hx2 hsg hres
    obtain ⟨s, hs, r3, a1, a2, hcaps, hr3⟩ := key x sign hx hx2 hsg
    refine ⟨s, ?_, ?_⟩
    · rw [← hs, hmt]; simp
    · intro pre text
      simp only [RMatch.group, hcaps]
      have h31 : (r3.1 == 1) = false := by rw [hr3]; rfl
      have h32 : (r3.1 == 2) = false := by rw [hr3]; rfl
      rcases hsg with rfl | ⟨g, rfl, hg⟩
      · simpa [h31, h32] using hres
      · simpa [h31, h32] using hres
  simp only [List.mem_cons, List.not_mem_nil, or_false] at hm
  rcases hm with rfl | rfl | rfl | rfl | rfl | rfl
  · exact fin '|' [] rfl (by decide) (by decide) (Or.inl rfl) rfl
  · exact fin '|' §"+" rfl (by decide) (by decide) (Or.inr ⟨'+', rfl, by decide⟩) rfl
  · exact fin '|' §"-" rfl (by decide) (by decide) (Or.inr ⟨'-', rfl, by decide⟩) rfl
  · exact fin '>' [] rfl (by decide) (by decide) (Or.inl rfl) rfl
  · exact fin '>' §"+" rfl (by decide) (by decide) (Or.inr ⟨'+', rfl, by decide⟩) rfl
  · exact fin '>' §"-" rfl (by decide) (by decide) (Or.inr ⟨'-', rfl, by decide⟩) rfl

/-- The marker of the line of a multi-line text. -/
theorem marker_free {level : Nat} {name w tail : Str} {m : Multiline}
    (hm : m ∈ [Multiline.pipe, .pipePlus, .pipeMinus, .rAngle, .rAnglePlus, .rAngleMinus])
    (hclean : ∀ c, (name ++ ':' :: (w ++ (m.text ++ tail))).head? = some c → isSpace c = false) (hw : Blank w) (hwn : w ≠ [])
    (hline : '\n' ∉ name) (hno : ∀ c, tail.head? = some c → (§"+-").contains c = false) (ht : NoMarker tail) :
    ∃ r, Regex.multiline.matchStart (ind level ++ (name ++ ':' :: (w ++ (m.text ++ tail)))) = some r ∧
      multilineOf ((r.group 1).getD []) (r.group 2) = m := by
  obtain ⟨s, hs, hres⟩ := markerTail_free m hm (name.reverse ++ (ind level).reverse) w tail hw hwn hno
  have hws := takeWhile_ind level hclean
  have f1 : (Rx.star Rx.ws).first ⟨[], ind level ++ (name ++ ':' :: (w ++ (m.text ++ tail))), []⟩ =
      some ⟨(ind level).reverse, name ++ ':' :: (w ++ (m.text ++ tail)), []⟩ := by
    refine (Rx.first_star isSpace _).trans ?_
    simp only [hws.1, hws.2, MSt.eat, List.append_nil]
  have f2 : (Rx.seq (.star Rx.dot) markerTail).first ⟨(ind level).reverse, name ++ ':' :: (w ++ (m.text ++ tail)), []⟩ = some s := by
    refine Rx.first_star_seq (t := name) (rest := ':' :: (w ++ (m.text ++ tail))) rfl (fun d hd => by
      simp only [bne_iff_ne, ne_eq]
      rintro rfl; exact hline hd) hs ?_
    intro x y hx hxy
    apply Rx.run_nil
    intro t rest ht' hl
    obtain ⟨v, mm, b, rfl, hv, hvsp, hmm⟩ := lang_markerTail hl
    have hy : y = (':' :: v ++ mm :: b) ++ rest := ht'
    rw [hy] at hxy
    obtain ⟨d, x', rfl⟩ := List.exists_cons_of_ne_nil hx
    simp only [List.cons_append, List.cons.injEq] at hxy
    obtain ⟨_, e⟩ := hxy
    have hp : ':' ∉ w ++ m.text := by
      intro hmem
      rcases List.mem_append.1 hmem with h | h
      · exact blank_notMem hw (show isSpace ':' = false by decide) h
      · revert h
        simp only [List.mem_cons, List.not_mem_nil, or_false] at hm
        rcases hm with rfl | rfl | rfl | rfl | rfl | rfl <;> decide
    obtain ⟨z, hz⟩ := append_cut_left (p := w ++ m.text) (q := tail) (a := x') (x := ':') (b := v ++ mm :: b ++ rest)
      (by rw [List.append_assoc]; simpa using e) hp
    have := ht z v mm (b ++ rest) (by rw [hz]; simp) hv hvsp
    rcases hmm with rfl | rfl
    · exact this.1 rfl
    · exact this.2 rfl
  have f3 : Regex.multiline.first ⟨[], ind level ++ (name ++ ':' :: (w ++ (m.text ++ tail))), []⟩ = some s := Rx.first_seq f1 f2
  exact ⟨_, Rx.matchAt_first' f3, hres _ _⟩

end Crm

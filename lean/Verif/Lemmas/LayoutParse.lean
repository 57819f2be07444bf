import Verif.Lemmas.LayoutLine

/-! # Reading the lines of a freely laid out file gives the tree of its document -/

namespace Crm
open Spec Doc

/-- The line of an entry that is not a multi-line text. -/
theorem Reading.free {E : Env} {d : Doc} (h : d.Ok E) (hm : ∀ k m c body, d ≠ .multi k m c body) {b : Build} {p : Pos} {st : List Pos}
    {m : Node} {rest : List Str} {line : Str} (hl : FreeLine E st.length d line) (hb : Ready b p st) (hp : nodeAt b.root p = some m)
    {P : Build → Prop} (hP : P (attached b p st m.children.length (lineNode d))) : Reading E [line] rest b P := by
  intro f hf
  obtain ⟨body, gap, rfl, hg, hh⟩ := hl
  obtain ⟨h1, h2, h3, h4⟩ := free_parse h hm hh
  cases f with
  | zero => simp at hf
  | succ f =>
    refine ⟨_, f, by simpa using hf, ?_, hP⟩
    rw [List.singleton_append, buildLoop]
    have hmk : Regex.multiline.matchStart (ind st.length ++ body ++ gap) = none := by
      rw [List.append_assoc]; exact marker_none (noMarker_gap h4 hg)
    simp only [strip_free st.length h3 hg, h2, if_false, h1, hmk, numTabSpaces_free st.length h3 h2, bind, Except.bind, hb.attach hp]

theorem Reading.blankLine {E : Env} {l : Str} {rest : List Str} {b : Build} {P : Build → Prop} (hl : Blank l) (h : P b) :
    Reading E [l] rest b P := by
  intro f hf
  cases f with
  | zero => simp at hf
  | succ f =>
    refine ⟨b, f, by simpa using hf, ?_, h⟩
    rw [List.singleton_append, buildLoop]
    simp only [strip_blank hl, if_true]

theorem Reading.blanks {E : Env} {ls rest : List Str} {b : Build} {P : Build → Prop} (hl : ∀ l ∈ ls, Blank l) (h : P b) :
    Reading E ls rest b P := by
  induction ls with
  | nil => exact Reading.nil h
  | cons l ls ih =>
    have := Reading.append (l1 := [l]) (l2 := ls) (rest := rest) (b := b) (P := (· = b)) (Q := P)
      (Reading.blankLine (hl l (by simp)) rfl) (fun b' hb' => by subst hb'; exact ih (fun x hx => hl x (by simp [hx])))
    simpa using this

/-! ## Multi-line texts -/

theorem freeHead_props {E : Env} {d : Doc} {body : Str} (hf : FreeHead E d body) : body ≠ [] ∧ strip body = body := by
  cases hf with
  | comment hu ht _ _ => obtain ⟨u, rfl⟩ := hu; exact ⟨by simp, ht⟩
  | marker hc _ _ hb _ _ ht _ _ => exact ⟨body_ne_nil hc (by simp), ht⟩
  | entry _ _ hc hne _ _ _ ht _ _ => exact ⟨body_ne_nil hc hne, ht⟩

theorem free_stop {E : Env} {d : Doc} {line : Str} {level : Nat} (h : FreeLine E level d line) (tl : List Str) :
    TextStop level (line :: tl) := by
  obtain ⟨body, gap, rfl, hg, hh⟩ := h
  obtain ⟨h1, h2⟩ := freeHead_props hh
  exact ⟨_, tl, rfl, by simp [h1], by rw [numTabSpaces_free level h2 h1]; exact Nat.le_refl _⟩

/-- The first line of an entry. -/
theorem laid_first {E : Env} {d : Doc} {level : Nat} {ls : List Str} (h : Laid E level d ls) : ∃ line tl, ls = line :: tl ∧ FreeLine E level d line := by
  cases d with
  | multi k m c body => obtain ⟨line, texts, rfl, h1, _⟩ := h; exact ⟨_, _, rfl, h1⟩
  | block k c cs => obtain ⟨line, texts, rfl, h1, _⟩ := h; exact ⟨_, _, rfl, h1⟩
  | elem first rest => obtain ⟨line, below, more, rfl, h1, _⟩ := h; exact ⟨_, _, rfl, h1⟩
  | comment t => obtain ⟨line, rfl, h1⟩ := h; exact ⟨_, _, rfl, h1⟩
  | empty k c => obtain ⟨line, rfl, h1⟩ := h; exact ⟨_, _, rfl, h1⟩
  | scalar k vt v c => obtain ⟨line, rfl, h1⟩ := h; exact ⟨_, _, rfl, h1⟩
  | item vt v c => obtain ⟨line, rfl, h1⟩ := h; exact ⟨_, _, rfl, h1⟩

/-- A multi-line text ends where the next entry starts. -/
theorem laidL_stop {E : Env} {ds : List Doc} {level : Nat} {ls rest : List Str} (h : LaidL E level ds ls) (hne : ds ≠ []) (hb : NoBlankFirst ls) :
    TextStop level (ls ++ rest) := by
  cases ds with
  | nil => exact absurd rfl hne
  | cons d ds =>
    obtain ⟨blanks, own, more, rfl, h1, h2, _⟩ := h
    cases blanks with
    | cons l blanks => exact absurd (h1 l (by simp)) (hb l (by simp))
    | nil =>
      obtain ⟨line, tl, rfl, hl⟩ := laid_first h2
      exact free_stop hl _

/-- Without entries there is nothing but blank lines. -/
theorem laidL_nil {E : Env} {level : Nat} {ls : List Str} (h : LaidL E level [] ls) (hb : NoBlankFirst ls) : ls = [] := by
  cases ls with
  | nil => rfl
  | cons l ls => exact absurd ((h : ∀ l ∈ _, Blank l) l (by simp)) (hb l rfl)

theorem take_free {level : Nat} {body lines rest : List Str} (hb : FreeTexts level body lines) (hs : TextStop level rest) :
    takeMultiline (2 * level) (lines ++ rest) = .ok (body, rest) := by
  induction hb with
  | nil =>
    obtain ⟨l, tl, rfl, h2, h3⟩ := hs
    simp only [List.nil_append, takeMultiline]
    rw [if_neg]
    rintro (h | h)
    · omega
    · exact h2 h
  | @cons t line ts lines h _ ih =>
    obtain ⟨h1, h2⟩ := h
    simp only [List.cons_append, takeMultiline]
    rw [ih, if_pos]
    · simp only [bind, Except.bind, h1]
    · rcases h2 with h | ⟨n, r, hn, rfl⟩
      · exact Or.inr h
      · refine Or.inl ?_
        rw [numTabSpaces_replicate]; omega

theorem free_marker {E : Env} {k c : Str} {m : Multiline} {texts : List Str} {body gap : Str} {level : Nat}
    (h : (Doc.multi k m c texts).Ok E) (hf : FreeHead E (Doc.multi k m c texts) body) (hg : Blank gap)
    (hone : ∀ x ∈ ind level ++ body ++ gap, isLineBreak x = false) :
    (∃ cs, parseLineNode E body = .ok { value := .str k, comment := c, children := cs, key := true }) ∧
    ∃ r, Regex.multiline.matchStart (ind level ++ body ++ gap) = some r ∧ multilineOf ((r.group 1).getD []) (r.group 2) = m := by
  cases hf with
  | entry _ hm => exact absurd rfl (hm _ _ _ _)
  | @marker _ _ _ _ name w _ hc hwn hw hb hn hh ht hnm hr =>
    constructor
    · obtain ⟨v, hr⟩ := hr
      rw [parseLineNode_eq hr (startsWith_free hc (by simp) hh), lineComment_free hc hb hn]
      exact ⟨_, rfl⟩
    · obtain ⟨tail, htail, hno, hmk⟩ : ∃ tail, body ++ gap = name ++ ':' :: (w ++ (m.text ++ tail)) ∧
          (∀ x, tail.head? = some x → (§"+-").contains x = false) ∧ NoMarker tail := by
        have hsp : ∀ x : Char, isSpace x = true → (§"+-").contains x = false := by
          intro x hx
          cases hcx : (§"+-").contains x with
          | false => rfl
          | true =>
            simp only [List.contains_eq_mem, List.mem_cons, List.not_mem_nil, or_false, decide_eq_true_eq] at hcx
            rcases hcx with rfl | rfl <;> revert hx <;> decide
        have hblank : NoMarker gap := by
          have : NoMarker [] := by intro a w m b he; simp at he
          simpa using noMarker_gap this hg
        rcases hc with ⟨rfl, rfl⟩ | ⟨w2, t, rfl, h2, h3, rfl⟩
        · exact ⟨gap, by simp, fun x hx => hsp x (hg x (List.mem_of_mem_head? hx)), hblank⟩
        · refine ⟨w2 ++ ('#' :: t ++ gap), by simp, fun x hx => hsp x (h3 x ?_), noMarker_after (noMarker_gap hnm hg) h3⟩
          obtain ⟨y, w3, rfl⟩ := List.exists_cons_of_ne_nil h2
          simp only [List.cons_append, List.head?_cons, Option.some.injEq] at hx
          simp [hx]
      rw [List.append_assoc] at hone ⊢
      rw [htail] at hone ⊢
      refine marker_free h.2.2.2.1 ?_ hw hwn ?_ hno hmk
      · intro x hx
        have hcl := (hb ▸ strip_is_clean (name ++ ':' :: w ++ m.text) : Clean _).1
        apply hcl
        cases name with
        | nil => simpa using hx
        | cons y n => simpa using hx
      · intro hmem
        have := hone '\n' (by simp [hmem])
        revert this; decide

/-! ## Whole entries -/

theorem laid_oneLine {own more : List Str} {P : Str → Prop} (h : ∀ l ∈ own ++ more, P l) : (∀ l ∈ own, P l) ∧ ∀ l ∈ more, P l :=
  ⟨fun l hl => h l (by simp [hl]), fun l hl => h l (by simp [hl])⟩

mutual
theorem read_laid (E : Env) : ∀ (d : Doc), d.Ok E → ∀ (ls : List Str) (b : Build) (p : Pos) (st : List Pos) (m : Node) (rest : List Str),
    Laid E st.length d ls → (∀ l ∈ ls, OneLine l) →
    Ready b p st → nodeAt b.root p = some m → (d.endsInText = true → TextStop st.length rest) →
    Reading E ls rest b fun b' =>
      b'.root = updateAt (addKids [d.node]) p b.root ∧ At b' (p :: st)
  | .comment t, h, ls, b, p, st, m, rest, hl, _, hb, hp, _ => by
    obtain ⟨line, rfl, hl⟩ := hl
    exact Reading.free h (by intros; simp) hl hb hp ⟨rfl, attached_at _ _ _ _ _⟩
  | .empty k c, h, ls, b, p, st, m, rest, hl, _, hb, hp, _ => by
    obtain ⟨line, rfl, hl⟩ := hl
    exact Reading.free h (by intros; simp) hl hb hp ⟨rfl, attached_at _ _ _ _ _⟩
  | .scalar k vt v c, h, ls, b, p, st, m, rest, hl, _, hb, hp, _ => by
    obtain ⟨line, rfl, hl⟩ := hl
    exact Reading.free h (by intros; simp) hl hb hp ⟨rfl, attached_at _ _ _ _ _⟩
  | .item vt v c, h, ls, b, p, st, m, rest, hl, _, hb, hp, _ => by
    obtain ⟨line, rfl, hl⟩ := hl
    exact Reading.free h (by intros; simp) hl hb hp ⟨rfl, attached_at _ _ _ _ _⟩
  | .multi k mm c body, h, ls, b, p, st, m, rest, hl, hone, hb, hp, hs => by
    intro f hf
    obtain ⟨line, texts, rfl, ⟨hd, gap, rfl, hg, hh⟩, ht⟩ := hl
    obtain ⟨⟨cs, hpl⟩, r, hr, hmul⟩ := free_marker (level := st.length) h hh hg (hone _ (by simp)).1
    obtain ⟨h2, h3⟩ := freeHead_props hh
    cases f with
    | zero => simp at hf
    | succ f =>
      refine ⟨attached b p st m.children.length (Doc.multi k mm c body).node, f, ?_, ?_, ?_⟩
      · simp at hf; omega
      · rw [List.cons_append, buildLoop]
        simp only [strip_free st.length h3 hg, h2, if_false, hpl, hr, numTabSpaces_free st.length h3 h2, bind, Except.bind,
          take_free ht (hs rfl), hmul, hb.attach hp]
        rfl
      · exact ⟨rfl, attached_at _ _ _ _ _⟩
  | .block k c cs, h, ls, b, p, st, m, rest, hl, hone, hb, hp, hs => by
    obtain ⟨line, below, rfl, hl, hbelow⟩ := hl
    have hline : Reading E [line] (below ++ rest) b
        (· = attached b p st m.children.length (lineNode (.block k c cs))) :=
      Reading.free h (by intros; simp) hl hb hp rfl
    obtain ⟨_, _, _, hne, _, hcs⟩ := h
    have hr : Ready (attached b p st m.children.length (lineNode (.block k c cs))) (p ++ [m.children.length]) (p :: st) :=
      opened hp (by simp [lineNode, Node.isCollectionElement])
    have := Reading.append hline (Q := fun b' => b'.root = updateAt (addKids [(Doc.block k c cs).node]) p b.root ∧ At b' (p :: st))
      (fun b' hb' => by
        subst hb'
        have hq : nodeAt (attached b p st m.children.length (lineNode (.block k c cs))).root (p ++ [m.children.length]) =
            some (lineNode (.block k c cs)) := nodeAt_added _ hp
        refine (read_laidL E cs hcs below _ _ (p :: st) _ rest hbelow (fun l hl => hone l (by simp [hl])) hr hq
          (fun he => (hs he).mono (by simp))).weaken ?_
        rintro b' ⟨h1, _, h3⟩
        refine ⟨?_, (h3 hne).tail⟩
        rw [h1]
        refine (updateAt_added _ _ hp).trans ?_
        simp [addKids, lineNode, node])
    simpa using this
  | .elem first rst, h, ls, b, p, st, m, rest, hl, hone, hb, hp, hs => by
    obtain ⟨line, below, more, rfl, hl, hunder, hstop, hmore'⟩ := hl
    have hone' : ∀ l ∈ below ++ more, OneLine l := fun l hl => hone l (by simp only [List.mem_cons]; exact Or.inr hl)
    obtain ⟨ho1, ho2⟩ := laid_oneLine hone'
    have hline : Reading E [line] ((below ++ more) ++ rest) b
        (· = attached b p st m.children.length (lineNode (.elem first rst))) :=
      Reading.free h (by intros; simp) hl hb hp rfl
    obtain ⟨_, _, _, hcan, hlead, _, hmore⟩ := h
    -- the rest of the element, from a state in which the first entry is complete
    have tail : ∀ b', b'.root = updateAt (addKids [{ comment := first.trail, listMember := true, children := [first.node] }]) p b.root →
        Ready b' (p ++ [m.children.length]) (p :: st) → (rst = [] → At b' (p :: st)) →
        ((Doc.elem first rst).endsInText = true → TextStop st.length rest) →
        Reading E more rest b' fun b' =>
          b'.root = updateAt (addKids [(Doc.elem first rst).node]) p b.root ∧ At b' (p :: st) := by
      intro b' hroot hready hat hs
      have hq : nodeAt b'.root (p ++ [m.children.length]) = some { comment := first.trail, listMember := true, children := [first.node] } := by
        rw [hroot]; exact nodeAt_added _ hp
      refine (read_laidL E rst hmore more b' _ (p :: st) _ rest hmore' ho2 hready hq (fun he => (hs (by
        cases rst with
        | nil => simp [endsInTextL] at he
        | cons d ds => simpa [endsInText, endsInTextL] using he)).mono (by simp))).weaken ?_
      rintro b2 ⟨h1, h2, h3⟩
      refine ⟨?_, ?_⟩
      · rw [h1, hroot]
        refine (updateAt_added _ _ hp).trans ?_
        simp [addKids, node]
      · by_cases hm : rst = []
        · rw [h2 hm]; exact hat hm
        · exact (h3 hm).tail
    cases first with
    | scalar k vt v c =>
      have hbel : below = [] := hunder
      subst hbel
      have := Reading.append hline (fun b' hb' => by
        subst hb'
        simp only [List.nil_append]
        refine tail _ rfl (opened hp (by
          have hsk := scalar_single (k := k) (vt := vt) (c := c) hlead.2.1
          simp only [lineNode, hsk, Bool.not_true, Bool.and_false])) (fun _ => attached_at _ _ _ _ _) hs)
      simpa using this
    | block k c cs =>
      obtain ⟨hne, _, hcs⟩ := hlead
      have hr : Ready (attached b p st m.children.length (lineNode (.elem (.block k c cs) rst)))
          (p ++ [m.children.length] ++ [0]) ((p ++ [m.children.length]) :: p :: st) :=
        opened_elem hp (by simp [lineNode, Node.isCollectionElement, Node.isSentinel, Node.isSingleKey])
      have := Reading.append hline (Q := fun b' => b'.root = updateAt (addKids [(Doc.elem (.block k c cs) rst).node]) p b.root ∧
          At b' (p :: st)) (fun b' hb' => by
        subst hb'
        have hq : nodeAt (attached b p st m.children.length (lineNode (.elem (.block k c cs) rst))).root (p ++ [m.children.length]) =
            some (lineNode (.elem (.block k c cs) rst)) := nodeAt_added _ hp
        have hq0 : nodeAt (attached b p st m.children.length (lineNode (.elem (.block k c cs) rst))).root
            (p ++ [m.children.length] ++ [0]) = some { value := .str k, comment := c, key := true } := by
          rw [nodeAt_append, hq]; rfl
        refine Reading.append (read_laidL E cs hcs below _ _ ((p ++ [m.children.length]) :: p :: st) _ _ hunder ho1 hr hq0 ?_) ?_
        · intro he
          cases rst with
          | nil =>
            rw [laidL_nil hmore' (hstop he), List.nil_append]
            exact (hs (by simpa [endsInText, endsInTextL] using he)).mono (by simp; omega)
          | cons d ds => exact (laidL_stop hmore' (by simp) (hstop he)).mono (by simp)
        · rintro b2 ⟨h1, _, h3⟩
          refine tail b2 ?_ (h3 hne).tail.ready (fun _ => (h3 hne).tail.tail) hs
          rw [h1, updateAt_append]
          refine (updateAt_added _ _ hp).trans ?_
          simp [addKids, lineNode, node, updateAt, trail])
      simpa using this
    | _ => cases hcan
theorem read_laidL (E : Env) : ∀ (ds : List Doc), OkL E ds → ∀ (ls : List Str) (b : Build) (p : Pos) (st : List Pos) (m : Node) (rest : List Str),
    LaidL E st.length ds ls → (∀ l ∈ ls, OneLine l) →
    Ready b p st → nodeAt b.root p = some m → (endsInTextL false ds = true → TextStop st.length rest) →
    Reading E ls rest b fun b' =>
      b'.root = updateAt (addKids (nodes ds)) p b.root ∧ (ds = [] → b' = b) ∧ (ds ≠ [] → At b' (p :: st))
  | [], _, ls, b, p, st, m, rest, hl, _, _, _, _ => by
    refine Reading.blanks hl ⟨?_, fun _ => rfl, fun h => absurd rfl h⟩
    simp [nodes, updateAt_addKids_nil]
  | d :: ds, h, ls, b, p, st, m, rest, hl, hone, hb, hp, hs => by
    obtain ⟨blanks, own, more, rfl, hbl, hown, hstop, hmore⟩ := hl
    obtain ⟨_, ho⟩ := laid_oneLine hone
    obtain ⟨ho1, ho2⟩ := laid_oneLine ho
    refine Reading.append (P := (· = b)) (Reading.blanks hbl rfl) ?_
    intro b0 hb0
    subst hb0
    refine Reading.append (read_laid E d h.1 own b0 p st m _ hown ho1 hb hp ?_) ?_
    · intro he
      cases ds with
      | nil =>
        rw [laidL_nil hmore (hstop he), List.nil_append]
        exact hs (by simpa [endsInTextL] using he)
      | cons d' ds => exact laidL_stop hmore (by simp) (hstop he)
    · rintro b' ⟨h1, h2⟩
      refine (read_laidL E ds h.2 more b' p st (addKids [d.node] m) rest hmore ho2 h2.ready
        (by rw [h1]; exact nodeAt_updateAt_self _ _ _ hp) ?_).weaken ?_
      · intro he
        apply hs
        cases ds with
        | nil => simp [endsInTextL] at he
        | cons d' ds => simpa [endsInTextL] using he
      · rintro b2 ⟨h3, h4, h5⟩
        refine ⟨?_, by simp, fun _ => ?_⟩
        · rw [h3, h1, updateAt_addKids]; rfl
        · by_cases hd : ds = []
          · rw [h4 hd]; exact h2
          · exact h5 hd
end

end Crm

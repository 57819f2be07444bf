import Verif.Lemmas.DocLine
import Verif.Lemmas.Update
import Verif.Lemmas.SelTable

/-! # Reading the lines of a document gives its tree -/

namespace Crm
open Spec Doc

/-! ## The state of the line loop -/

/-- The next line attached at the level of `p :: st` becomes a child of the node at `p`. -/
def Ready (b : Build) (p : Pos) (st : List Pos) : Prop :=
  ∀ n, attachLine b (2 * st.length) n =
    .ok ⟨updateAt (addKids [n]) p b.root, p :: st, 2 * st.length,
      p ++ [((nodeAt b.root p).map (·.children.length)).getD 0]⟩

/-- The stack belongs to the indentation, and `st` is at the bottom of it. -/
def At (b : Build) (st : List Pos) : Prop := b.curIndent + 2 = 2 * b.stack.length ∧ st <:+ b.stack

theorem popN_append (a st : List Pos) : popN a.length (a ++ st) = .ok st := by
  induction a with
  | nil => rfl
  | cons x a ih => simpa [popN] using ih

theorem At.ready {b : Build} {p : Pos} {st : List Pos} (h : At b (p :: st)) : Ready b p st := by
  intro n
  obtain ⟨h1, pre, h2⟩ := h
  rw [← h2] at h1
  simp only [List.length_append, List.length_cons] at h1
  unfold attachLine
  rw [if_neg (by omega)]
  cases pre with
  | nil =>
    rw [if_neg (by simp at h1; omega)]
    simp only [bind, Except.bind, ← h2, List.nil_append]
    rfl
  | cons x pre =>
    rw [if_pos (by simp at h1; omega)]
    have : (b.curIndent - 2 * st.length) / 2 = (x :: pre).length := by simp only [List.length_cons] at h1 ⊢; omega
    rw [this, ← h2, popN_append]
    rfl

theorem At.tail {b : Build} {p : Pos} {st : List Pos} (h : At b (p :: st)) : At b st :=
  ⟨h.1, (List.suffix_cons p st).trans h.2⟩

/-- The state after a line was attached. -/
def attached (b : Build) (p : Pos) (st : List Pos) (k : Nat) (n : Node) : Build :=
  ⟨updateAt (addKids [n]) p b.root, p :: st, 2 * st.length, p ++ [k]⟩

theorem attached_at (b : Build) (p : Pos) (st : List Pos) (k : Nat) (n : Node) : At (attached b p st k n) (p :: st) :=
  ⟨by simp [attached]; omega, List.suffix_refl _⟩

theorem Ready.attach {b : Build} {p : Pos} {st : List Pos} {m : Node} (h : Ready b p st) (hm : nodeAt b.root p = some m) (n : Node) :
    attachLine b (2 * st.length) n = .ok (attached b p st m.children.length n) := by
  rw [h n, hm]; rfl

/-- Below a line that opens a level. -/
theorem opened {b : Build} {p : Pos} {st : List Pos} {m n : Node} (hm : nodeAt b.root p = some m)
    (hn : (n.isCollectionElement && !(match n.children with | c :: _ => c.isSingleKey | [] => false)) = false) :
    Ready (attached b p st m.children.length n) (p ++ [m.children.length]) (p :: st) := by
  intro x
  have hq : nodeAt (attached b p st m.children.length n).root (attached b p st m.children.length n).last = some n :=
    nodeAt_added n hm
  unfold attachLine
  rw [if_pos (by simp [attached]), hq]
  simp only [bind, Except.bind]
  exact (if_neg (fun hc => Bool.false_ne_true (hn.symm.trans hc))).trans rfl

/-- Below `- key:`. -/
theorem opened_elem {b : Build} {p : Pos} {st : List Pos} {m n : Node} (hm : nodeAt b.root p = some m)
    (hn : (n.isCollectionElement && !(match n.children with | c :: _ => c.isSingleKey | [] => false)) = true) :
    Ready (attached b p st m.children.length n) (p ++ [m.children.length] ++ [0]) ((p ++ [m.children.length]) :: p :: st) := by
  intro x
  have hq : nodeAt (attached b p st m.children.length n).root (attached b p st m.children.length n).last = some n :=
    nodeAt_added n hm
  unfold attachLine
  rw [if_pos (by simp [attached]; omega), hq]
  simp only [bind, Except.bind]
  exact (if_pos hn).trans rfl

/-! ## One line -/

theorem head_ne_nil {E : Env} {d : Doc} (h : LineOk E d) : d.head ≠ [] := by
  unfold Doc.head withComment
  split
  · exact h.clean.1
  · simp

theorem buildLoop_line {E : Env} {head : Str} {n : Node} {level f : Nat} {rest : List Str} {b : Build} (ht : strip head = head)
    (hne : head ≠ []) (hp : parseLineNode E head = .ok n) (hm : Regex.multiline.matchStart (ind level ++ head) = none) :
    buildLoop E (f + 1) ((ind level ++ head) :: rest) b =
      (attachLine b (2 * level) n).bind fun b => buildLoop E f rest b := by
  rw [buildLoop]
  have hi : numTabSpaces (ind level ++ head) = 2 * level := (numTabSpaces_ind level ht).resolve_right hne
  simp only [strip_ind level ht, hne, if_false, hp, hm, hi, bind, Except.bind]

theorem buildLoop_marker {E : Env} {head : Str} {n : Node} {level f : Nat} {body rest : List Str} {b : Build} {r : RMatch}
    (ht : strip head = head)
    (hne : head ≠ []) (hp : parseLineNode E head = .ok n) (hm : Regex.multiline.matchStart (ind level ++ head) = some r)
    {vs : List Str} (htake : takeMultiline (2 * level) (body ++ rest) = .ok (vs, rest)) :
    buildLoop E (f + 1) ((ind level ++ head) :: (body ++ rest)) b =
      (attachLine b (2 * level) ⟨n.value, n.comment,
        [⟨.list (vs.map .str), [], [], false, multilineOf ((r.group 1).getD []) (r.group 2), false⟩],
        n.listMember, n.multiline, n.key⟩).bind fun b => buildLoop E f rest b := by
  rw [buildLoop]
  have hi : numTabSpaces (ind level ++ head) = 2 * level := (numTabSpaces_ind level ht).resolve_right hne
  simp only [strip_ind level ht, hne, if_false, hp, hm, hi, bind, Except.bind, htake]

theorem buildLoop_blank {E : Env} {f : Nat} {rest : List Str} {b : Build} :
    buildLoop E (f + 1) ([] :: rest) b = buildLoop E f rest b := by
  rw [buildLoop]
  simp only [show strip [] = [] by rfl, if_true]

/-- The node read from the line of an entry. -/
def lineNode : Doc → Node
  | .block k c _ => { value := .str k, comment := c, key := true }
  | .elem (.block k c _) _ => { comment := c, listMember := true, children := [{ value := .str k, comment := c, key := true }] }
  | .elem (.scalar k vt v c) _ => { comment := c, listMember := true, children := [(Doc.scalar k vt v c).node] }
  | d => d.node

theorem parse_head {E : Env} {d : Doc} (h : d.Ok E) (hm : ∀ k m c body, d ≠ .multi k m c body) :
    parseLineNode E d.head = .ok (lineNode d) := by
  cases d with
  | comment t =>
    obtain ⟨hl, ⟨u, rfl⟩, _⟩ := h
    obtain ⟨v, hv⟩ := hl.reads
    simp only [Doc.head, withComment, Doc.trail, if_true, Doc.base] at hv ⊢
    rw [parseLineNode_comment hv (startsWith_hash u)]
    rfl
  | empty k c =>
    obtain ⟨hl, hx, _⟩ := h
    have hr := hl.reads
    simp only [Reads] at hr
    rw [parseLineNode_eq hr (startsWith_head hl.clean.1 hx.2.2)]
    unfold Doc.head
    rw [lineComment_head hl.clean.2 hx.1 hx.2.1]
    rfl
  | scalar k vt v c =>
    obtain ⟨hl, hx, _, hv, _⟩ := h
    have hr := hl.reads
    simp only [Reads] at hr
    rw [parseLineNode_eq hr (startsWith_head hl.clean.1 hx.2.2)]
    unfold Doc.head
    rw [lineComment_head hl.clean.2 hx.1 hx.2.1]
    simp only [nodeOf, hv, if_false]
    rfl
  | multi k m c body => exact absurd rfl (hm k m c body)
  | block k c cs =>
    obtain ⟨hl, hx, _⟩ := h
    have hr := hl.reads
    simp only [Reads] at hr
    rw [parseLineNode_eq hr (startsWith_head hl.clean.1 hx.2.2)]
    unfold Doc.head
    rw [lineComment_head hl.clean.2 hx.1 hx.2.1]
    rfl
  | item vt v c =>
    obtain ⟨hl, hx, _, hd, _⟩ := h
    have hr := hl.reads
    simp only [Reads] at hr
    rw [parseLineNode_eq hr (startsWith_head hl.clean.1 hx.2.2)]
    unfold Doc.head
    rw [lineComment_head hl.clean.2 hx.1 hx.2.1]
    cases v <;> first | rfl | exact absurd rfl (hd _)
  | elem first rest =>
    obtain ⟨hl, hx, _, hcan, hlead, _⟩ := h
    have hr := hl.reads
    cases first with
    | scalar k vt v c =>
      simp only [Reads] at hr
      rw [parseLineNode_eq hr (startsWith_head hl.clean.1 hx.2.2)]
      unfold Doc.head
      rw [lineComment_head hl.clean.2 hx.1 hx.2.1]
      simp only [nodeOf, hlead.1, if_false]
      rfl
    | block k c cs =>
      simp only [Reads] at hr
      rw [parseLineNode_eq hr (startsWith_head hl.clean.1 hx.2.2)]
      unfold Doc.head
      rw [lineComment_head hl.clean.2 hx.1 hx.2.1]
      rfl
    | _ => cases hcan

theorem parse_head_multi {E : Env} {k c : Str} {m : Multiline} {body : List Str} (h : (Doc.multi k m c body).Ok E) :
    ∃ cs, parseLineNode E (Doc.multi k m c body).head = .ok { value := .str k, comment := c, children := cs, key := true } := by
  obtain ⟨hl, hx, _⟩ := h
  obtain ⟨v, hr⟩ := hl.reads
  rw [parseLineNode_eq hr (startsWith_head hl.clean.1 hx.2.2)]
  unfold Doc.head
  rw [lineComment_head hl.clean.2 hx.1 hx.2.1]
  exact ⟨_, rfl⟩

theorem noMarker_head {E : Env} {d : Doc} (h : d.Ok E) (hm : ∀ k m c body, d ≠ .multi k m c body) : NoMarker d.head := by
  cases d with
  | comment t => exact h.2.2
  | empty k c => exact h.2.2.1
  | scalar k vt v c => exact h.2.2.1
  | multi k m c body => exact absurd rfl (hm k m c body)
  | block k c cs => exact h.2.2.1
  | item vt v c => exact h.2.2.1
  | elem first rest => exact h.2.2.1

theorem lineOk {E : Env} {d : Doc} (h : d.Ok E) : LineOk E d := by
  cases d <;> exact h.1

/-- The line of an entry that is not a multi-line text. -/
theorem step {E : Env} {d : Doc} (h : d.Ok E) (hm : ∀ k m c body, d ≠ .multi k m c body) {b : Build} {p : Pos} {st : List Pos}
    {m : Node} {f : Nat} {rest : List Str} (hb : Ready b p st) (hp : nodeAt b.root p = some m) :
    buildLoop E (f + 1) ((ind st.length ++ d.head) :: rest) b =
      buildLoop E f rest (attached b p st m.children.length (lineNode d)) := by
  rw [buildLoop_line (lineOk h).plain.trimmed (head_ne_nil (lineOk h)) (parse_head h hm) (marker_none (noMarker_head h hm)),
    hb.attach hp]
  rfl

/-! ## Multi-line texts -/

/-- The next line ends a multi-line text of this level. -/
def TextStop (level : Nat) (rest : List Str) : Prop := ∃ l tl, rest = l :: tl ∧ l ≠ [] ∧ numTabSpaces l ≤ 2 * level

theorem TextStop.mono {a b : Nat} (h : a ≤ b) {rest : List Str} (hs : TextStop a rest) : TextStop b rest := by
  obtain ⟨l, tl, h1, h2, h3⟩ := hs
  exact ⟨l, tl, h1, h2, by omega⟩

theorem stop_doc {E : Env} {d : Doc} (h : d.Ok E) (level : Nat) (tl : List Str) : TextStop level ((ind level ++ d.head) :: tl) := by
  refine ⟨_, tl, rfl, by simp [head_ne_nil (lineOk h)], ?_⟩
  rw [(numTabSpaces_ind level (lineOk h).plain.trimmed).resolve_right (head_ne_nil (lineOk h))]
  exact Nat.le_refl _

theorem take_body {level : Nat} {body rest : List Str} (hb : ∀ l ∈ body, Plain l) (hs : TextStop level rest) :
    takeMultiline (2 * level) (body.map (fun l => if l = [] then [] else ind (level + 1) ++ l) ++ rest) = .ok (body, rest) := by
  induction body with
  | nil =>
    obtain ⟨l, tl, rfl, h2, h3⟩ := hs
    simp only [List.map_nil, List.nil_append, takeMultiline]
    rw [if_neg]
    rintro (h | h)
    · omega
    · exact h2 h
  | cons l body ih =>
    simp only [List.map_cons, List.cons_append, takeMultiline]
    rw [ih (fun x hx => hb x (by simp [hx]))]
    by_cases hl : l = []
    · subst hl
      simp only [if_true, or_true, bind, Except.bind]
      rfl
    · have ht := (hb l (by simp)).trimmed
      rw [if_neg hl, if_pos (Or.inl (by
        rw [(numTabSpaces_ind (level + 1) ht).resolve_right hl]; omega))]
      simp only [bind, Except.bind, strip_ind (level + 1) ht]

/-! ## Whole entries -/

theorem endsInTextL_false {b : Bool} {d : Doc} {ds : List Doc} : endsInTextL b (d :: ds) = endsInTextL false (d :: ds) := by
  simp [endsInTextL]

theorem linesL_cons (level : Nat) (d : Doc) (ds : List Doc) : linesL level (d :: ds) = d.lines level ++ linesL level ds := by
  simp [linesL, lines]

/-- What reading some lines does. -/
def Reading (E : Env) (ls : List Str) (rest : List Str) (b : Build) (P : Build → Prop) : Prop :=
  ∀ f, (ls ++ rest).length ≤ f → ∃ b' f', rest.length ≤ f' ∧ buildLoop E f (ls ++ rest) b = buildLoop E f' rest b' ∧ P b'

theorem Reading.append {E : Env} {l1 l2 rest : List Str} {b : Build} {P Q : Build → Prop} (h1 : Reading E l1 (l2 ++ rest) b P)
    (h2 : ∀ b', P b' → Reading E l2 rest b' Q) : Reading E (l1 ++ l2) rest b Q := by
  intro f hf
  rw [List.append_assoc] at hf ⊢
  obtain ⟨b1, f1, hf1, he1, hp1⟩ := h1 f hf
  obtain ⟨b2, f2, hf2, he2, hp2⟩ := h2 b1 hp1 f1 hf1
  exact ⟨b2, f2, hf2, he1.trans he2, hp2⟩

theorem Reading.nil {E : Env} {rest : List Str} {b : Build} {P : Build → Prop} (h : P b) : Reading E [] rest b P :=
  fun f hf => ⟨b, f, by simpa using hf, rfl, h⟩

theorem Reading.line {E : Env} {d : Doc} (h : d.Ok E) (hm : ∀ k m c body, d ≠ .multi k m c body) {b : Build} {p : Pos} {st : List Pos}
    {m : Node} {rest : List Str} (hb : Ready b p st) (hp : nodeAt b.root p = some m) {P : Build → Prop}
    (hP : P (attached b p st m.children.length (lineNode d))) : Reading E [ind st.length ++ d.head] rest b P := by
  intro f hf
  cases f with
  | zero => simp at hf
  | succ f =>
    refine ⟨_, f, by simpa using hf, ?_, hP⟩
    exact step h hm hb hp

theorem Reading.weaken {E : Env} {ls rest : List Str} {b : Build} {P Q : Build → Prop} (h : Reading E ls rest b P)
    (hPQ : ∀ b, P b → Q b) : Reading E ls rest b Q := by
  intro f hf
  obtain ⟨b', f', h1, h2, h3⟩ := h f hf
  exact ⟨b', f', h1, h2, hPQ b' h3⟩

theorem scalar_single {k vt c : Str} {v : PyVal} (hv : v ≠ .sentinel) : (Doc.scalar k vt v c).node.isSingleKey = true := by
  have : (⟨v, c, [], false, .no, false⟩ : Node).isSentinel = false := by
    cases v <;> first | rfl | exact absurd rfl hv
  simp [node, Node.isSingleKey, Node.isLeaf, Node.isComment, this]

mutual
theorem read_doc (E : Env) : ∀ (d : Doc), d.Ok E → ∀ (b : Build) (p : Pos) (st : List Pos) (m : Node) (rest : List Str),
    Ready b p st → nodeAt b.root p = some m → (d.endsInText = true → TextStop st.length rest) →
    Reading E (d.lines st.length) rest b fun b' =>
      b'.root = updateAt (addKids [d.node]) p b.root ∧ At b' (p :: st)
  | .comment t, h, b, p, st, m, rest, hb, hp, _ => by
    simp only [lines, under]
    exact Reading.line h (by intros; simp) hb hp ⟨rfl, attached_at _ _ _ _ _⟩
  | .empty k c, h, b, p, st, m, rest, hb, hp, _ => by
    simp only [lines, under]
    exact Reading.line h (by intros; simp) hb hp ⟨rfl, attached_at _ _ _ _ _⟩
  | .scalar k vt v c, h, b, p, st, m, rest, hb, hp, _ => by
    simp only [lines, under]
    exact Reading.line h (by intros; simp) hb hp ⟨rfl, attached_at _ _ _ _ _⟩
  | .item vt v c, h, b, p, st, m, rest, hb, hp, _ => by
    simp only [lines, under]
    exact Reading.line h (by intros; simp) hb hp ⟨rfl, attached_at _ _ _ _ _⟩
  | .multi k mm c body, h, b, p, st, m, rest, hb, hp, hs => by
    intro f hf
    obtain ⟨cs, hpl⟩ := parse_head_multi h
    have hl := lineOk h
    obtain ⟨_, hx, hnm, hmm, hbody⟩ := h
    obtain ⟨r, hr, hmul⟩ := marker_some (level := st.length) hmm hl.plain hnm
    cases f with
    | zero => simp [lines] at hf
    | succ f =>
      simp only [lines, under]
      refine ⟨attached b p st m.children.length (Doc.multi k mm c body).node, f, ?_, ?_, ?_⟩
      · simp [lines, under] at hf; omega
      · rw [List.cons_append, buildLoop_marker hl.plain.trimmed (head_ne_nil hl) hpl hr (take_body hbody (hs rfl)), hmul,
          hb.attach hp]
        rfl
      · exact ⟨rfl, attached_at _ _ _ _ _⟩
  | .block k c cs, h, b, p, st, m, rest, hb, hp, hs => by
    have hline : Reading E [ind st.length ++ (Doc.block k c cs).head] (linesL (st.length + 1) cs ++ rest) b
        (· = attached b p st m.children.length (lineNode (.block k c cs))) :=
      Reading.line h (by intros; simp) hb hp rfl
    obtain ⟨_, _, _, hne, _, hcs⟩ := h
    have hr : Ready (attached b p st m.children.length (lineNode (.block k c cs))) (p ++ [m.children.length]) (p :: st) :=
      opened hp (by simp [lineNode, Node.isCollectionElement])
    have := Reading.append hline (Q := fun b' => b'.root = updateAt (addKids [(Doc.block k c cs).node]) p b.root ∧ At b' (p :: st))
      (fun b' hb' => by
        subst hb'
        have hq : nodeAt (attached b p st m.children.length (lineNode (.block k c cs))).root (p ++ [m.children.length]) =
            some (lineNode (.block k c cs)) := nodeAt_added _ hp
        refine (read_docs E cs hcs _ _ (p :: st) _ rest hr hq (fun he => (hs he).mono (by simp))).weaken ?_
        rintro b' ⟨h1, _, h3⟩
        refine ⟨?_, (h3 hne).tail⟩
        rw [h1]
        refine (updateAt_added _ _ hp).trans ?_
        simp [addKids, lineNode, node])
    simpa [lines, under] using this
  | .elem first more, h, b, p, st, m, rest, hb, hp, hs => by
    have hline : Reading E [ind st.length ++ (Doc.elem first more).head]
        ((first.under (st.length + 1) ++ linesL (st.length + 1) more) ++ rest) b
        (· = attached b p st m.children.length (lineNode (.elem first more))) :=
      Reading.line h (by intros; simp) hb hp rfl
    obtain ⟨_, _, _, hcan, hlead, _, hmore⟩ := h
    -- the rest of the element, from a state in which the first entry is complete
    have tail : ∀ b', b'.root = updateAt (addKids [{ comment := first.trail, listMember := true, children := [first.node] }]) p b.root →
        Ready b' (p ++ [m.children.length]) (p :: st) → (more = [] → At b' (p :: st)) →
        ((Doc.elem first more).endsInText = true → TextStop st.length rest) →
        Reading E (linesL (st.length + 1) more) rest b' fun b' =>
          b'.root = updateAt (addKids [(Doc.elem first more).node]) p b.root ∧ At b' (p :: st) := by
      intro b' hroot hready hat hs
      have hq : nodeAt b'.root (p ++ [m.children.length]) = some { comment := first.trail, listMember := true, children := [first.node] } := by
        rw [hroot]; exact nodeAt_added _ hp
      refine (read_docs E more hmore b' _ (p :: st) _ rest hready hq (fun he => (hs (by
        cases more with
        | nil => simp [endsInTextL] at he
        | cons d ds => simpa [endsInText, endsInTextL] using he)).mono (by simp))).weaken ?_
      rintro b2 ⟨h1, h2, h3⟩
      refine ⟨?_, ?_⟩
      · rw [h1, hroot]
        refine (updateAt_added _ _ hp).trans ?_
        simp [addKids, node]
      · by_cases hm : more = []
        · rw [h2 hm]; exact hat hm
        · exact (h3 hm).tail
    cases first with
    | scalar k vt v c =>
      have := Reading.append hline (fun b' hb' => by
        subst hb'
        simp only [under, List.nil_append]
        refine tail _ rfl (opened hp (by
          have hsk := scalar_single (k := k) (vt := vt) (c := c) hlead.2.1
          simp only [lineNode, hsk, Bool.not_true, Bool.and_false])) (fun _ => attached_at _ _ _ _ _) hs)
      simpa [lines, under] using this
    | block k c cs =>
      obtain ⟨hne, _, hcs⟩ := hlead
      have hr : Ready (attached b p st m.children.length (lineNode (.elem (.block k c cs) more)))
          (p ++ [m.children.length] ++ [0]) ((p ++ [m.children.length]) :: p :: st) :=
        opened_elem hp (by simp [lineNode, Node.isCollectionElement, Node.isSentinel, Node.isSingleKey])
      have := Reading.append hline (Q := fun b' => b'.root = updateAt (addKids [(Doc.elem (.block k c cs) more).node]) p b.root ∧
          At b' (p :: st)) (fun b' hb' => by
        subst hb'
        have hq : nodeAt (attached b p st m.children.length (lineNode (.elem (.block k c cs) more))).root (p ++ [m.children.length]) =
            some (lineNode (.elem (.block k c cs) more)) := nodeAt_added _ hp
        have hq0 : nodeAt (attached b p st m.children.length (lineNode (.elem (.block k c cs) more))).root
            (p ++ [m.children.length] ++ [0]) = some { value := .str k, comment := c, key := true } := by
          rw [nodeAt_append, hq]; rfl
        refine Reading.append (read_docs E cs hcs _ _ ((p ++ [m.children.length]) :: p :: st) _ _ hr hq0 ?_) ?_
        · intro he
          cases more with
          | nil =>
            simp only [linesL, List.nil_append]
            exact (hs (by simpa [endsInText, endsInTextL] using he)).mono (by simp; omega)
          | cons d ds =>
            rw [linesL_cons]
            exact (stop_doc hmore.1 _ _).mono (by simp)
        · rintro b2 ⟨h1, _, h3⟩
          refine tail b2 ?_ (h3 hne).tail.ready (fun _ => (h3 hne).tail.tail) hs
          rw [h1, updateAt_append]
          refine (updateAt_added _ _ hp).trans ?_
          simp [addKids, lineNode, node, updateAt, trail])
      simpa [lines, under] using this
    | _ => cases hcan
theorem read_docs (E : Env) : ∀ (ds : List Doc), OkL E ds → ∀ (b : Build) (p : Pos) (st : List Pos) (m : Node) (rest : List Str),
    Ready b p st → nodeAt b.root p = some m → (endsInTextL false ds = true → TextStop st.length rest) →
    Reading E (linesL st.length ds) rest b fun b' =>
      b'.root = updateAt (addKids (nodes ds)) p b.root ∧ (ds = [] → b' = b) ∧ (ds ≠ [] → At b' (p :: st))
  | [], _, b, p, st, m, rest, _, _, _ => by
    refine Reading.nil ⟨?_, fun _ => rfl, fun h => absurd rfl h⟩
    simp [nodes, updateAt_addKids_nil]
  | d :: ds, h, b, p, st, m, rest, hb, hp, hs => by
    rw [linesL_cons]
    refine Reading.append (read_doc E d h.1 b p st m _ hb hp ?_) ?_
    · intro he
      cases ds with
      | nil => simpa [linesL] using hs (by simpa [endsInTextL] using he)
      | cons d' ds => rw [linesL_cons]; exact stop_doc h.2.1 _ _
    · rintro b' ⟨h1, h2⟩
      refine (read_docs E ds h.2 b' p st (addKids [d.node] m) rest h2.ready (by rw [h1]; exact nodeAt_updateAt_self _ _ _ hp) ?_).weaken ?_
      · intro he
        apply hs
        cases ds with
        | nil => simp [endsInTextL] at he
        | cons d' ds => simpa [endsInTextL] using he
      · rintro b2 ⟨h3, h4, h5⟩
        refine ⟨?_, by simp, fun _ => ?_⟩
        · rw [h3, h1, updateAt_addKids]; rfl
        · by_cases hd : ds = []
          · rw [h4 hd]; exact h2
          · exact h5 hd
end

end Crm

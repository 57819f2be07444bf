import Verif.Lemmas.DocParse
import Verif.Lemmas.DocRender
import Verif.Lemmas.Dict

/-! # From lines to a text and back -/

namespace Crm
open Spec Doc

/-! ## Splitting a text into its lines -/

theorem splitlinesGo_nl (l s : Str) (h : ∀ c ∈ l, isLineBreak c = false) : splitlinesGo [] (l ++ '\n' :: s) = l :: splitlinesGo [] s := by
  rw [splitlinesGo_line [] l h]
  have : isLineBreak '\n' = true := by decide
  cases s <;> simp [splitlinesGo, this]

theorem splitlines_join_nl (ls : List Str) (h : ∀ l ∈ ls, ∀ c ∈ l, isLineBreak c = false) (hne : ls ≠ []) :
    splitlines (joinStr §"\n" ls ++ §"\n") = ls := by
  induction ls with
  | nil => exact absurd rfl hne
  | cons l ls ih =>
    unfold splitlines
    by_cases hl : ls = []
    · subst hl
      simp only [joinStr]
      rw [splitlinesGo_nl l [] (h l (by simp))]
      rfl
    · rw [joinStr_cons _ _ _ hl]
      have : l ++ §"\n" ++ joinStr §"\n" ls ++ §"\n" = l ++ '\n' :: (joinStr §"\n" ls ++ §"\n") := by simp
      rw [this, splitlinesGo_nl l _ (h l (by simp))]
      have := ih (fun x hx => h x (by simp [hx])) hl
      rw [splitlines] at this
      rw [this]

theorem splitlines_join (ls : List Str) (l : Str) (h : ∀ l ∈ ls, ∀ c ∈ l, isLineBreak c = false)
    (hl : ∀ c ∈ l, isLineBreak c = false) (hne : l ≠ []) : splitlines (joinStr §"\n" (ls ++ [l])) = ls ++ [l] := by
  induction ls with
  | nil => exact splitlines_one hl hne
  | cons x ls ih =>
    rw [List.cons_append, joinStr_cons _ _ _ (by simp)]
    unfold splitlines
    rw [List.append_assoc, show §"\n" ++ joinStr §"\n" (ls ++ [l]) = '\n' :: joinStr §"\n" (ls ++ [l]) from rfl,
      splitlinesGo_nl x _ (h x (by simp))]
    have := ih (fun y hy => h y (by simp [hy]))
    rw [splitlines] at this
    rw [this]

/-! ## No Jinja statements in a document -/

theorem inStr_append_nl {d : Char} {a b : Str} (hd : d ≠ '\n') (ha : inStr ['{', d] a = false) (hb : inStr ['{', d] b = false) :
    inStr ['{', d] (a ++ '\n' :: b) = false := by
  rw [inStr_false_iff] at ha hb ⊢
  intro s hs hp
  obtain ⟨pre, hpre⟩ := hs
  rcases List.append_eq_append_iff.1 hpre with ⟨x, hx1, hx2⟩ | ⟨x, hx1, hx2⟩
  · subst hx2
    obtain ⟨q, hq⟩ := hp
    cases x with
    | nil => simp at hq
    | cons x1 xs =>
      cases xs with
      | nil =>
        simp only [List.cons_append, List.nil_append, List.cons.injEq] at hq
        exact hd hq.2.1
      | cons x2 xs =>
        simp only [List.cons_append, List.nil_append, List.cons.injEq] at hq
        obtain ⟨rfl, rfl, _⟩ := hq
        exact ha ('{' :: d :: xs) ⟨pre, hx1.symm⟩ ⟨xs, rfl⟩
  · cases x with
    | nil =>
      simp only [List.nil_append] at hx2
      subst hx2
      obtain ⟨q, hq⟩ := hp
      simp at hq
    | cons y x =>
      simp only [List.cons_append, List.cons.injEq] at hx2
      exact hb s ⟨x, hx2.2.symm⟩ hp

theorem inStr_nil (d : Char) : inStr ['{', d] [] = false := rfl

theorem inStr_join {d : Char} (hd : d ≠ '\n') (ls : List Str) (h : ∀ l ∈ ls, inStr ['{', d] l = false) :
    inStr ['{', d] (joinStr §"\n" ls) = false := by
  induction ls with
  | nil => rfl
  | cons l ls ih =>
    by_cases hl : ls = []
    · subst hl; exact h l (by simp)
    · rw [joinStr_cons _ _ _ hl, List.append_assoc]
      exact inStr_append_nl hd (h l (by simp)) (ih (fun x hx => h x (by simp [hx])))

theorem inStr_ind {d : Char} (level : Nat) {x : Str} (h : inStr ['{', d] x = false) : inStr ['{', d] (ind level ++ x) = false := by
  have key : ∀ n, inStr ['{', d] (List.replicate n ' ' ++ x) = false := by
    intro n
    induction n with
    | zero => simpa using h
    | succ n ih =>
      rw [List.replicate_succ, List.cons_append]
      rw [inStr_false_iff] at ih ⊢
      intro a ha hp
      rcases List.suffix_cons_iff.1 ha with rfl | ha
      · obtain ⟨q, hq⟩ := hp
        simp at hq
      · exact ih a ha hp
  exact key _

/-- A line as it stands in a document. -/
def TextLine (l : Str) : Prop := (∀ c ∈ l, isLineBreak c = false) ∧ inStr §"{%" l = false ∧ inStr §"{#" l = false

theorem textLine_nil : TextLine [] := ⟨by simp, rfl, rfl⟩

theorem textLine_ind (level : Nat) {x : Str} (h : Plain x) : TextLine (ind level ++ x) := by
  refine ⟨?_, inStr_ind level h.noStatement.1, inStr_ind level h.noStatement.2⟩
  intro c hc
  rcases List.mem_append.1 hc with hc | hc
  · rw [ind] at hc
    rw [(List.mem_replicate.1 hc).2]; rfl
  · exact h.oneLine c hc

mutual
theorem textLine_under (E : Env) : ∀ (d : Doc) (level : Nat), d.Ok E → ∀ l ∈ d.under level, TextLine l
  | .comment t, _, _ => by simp [under]
  | .empty k c, _, _ => by simp [under]
  | .scalar k vt v c, _, _ => by simp [under]
  | .item vt v c, _, _ => by simp [under]
  | .multi k m c body, level, h => by
    obtain ⟨_, _, _, _, hb⟩ := h
    intro l hl
    simp only [under, List.mem_map] at hl
    obtain ⟨x, hx, rfl⟩ := hl
    split
    · exact textLine_nil
    · exact textLine_ind _ (hb x hx)
  | .block k c cs, level, h => by
    obtain ⟨_, _, _, _, _, hcs⟩ := h
    intro l hl
    exact textLine_linesL E cs (level + 1) hcs l (by simpa [under] using hl)
  | .elem first more, level, h => by
    obtain ⟨_, _, _, hcan, hlead, _, hmore⟩ := h
    intro l hl
    simp only [under, List.mem_append] at hl
    rcases hl with hl | hl
    · cases first with
      | scalar k vt v c => simp [under] at hl
      | block k c cs => exact textLine_linesL E cs (level + 1 + 1) hlead.2.2 l (by simpa [under] using hl)
      | _ => cases hcan
    · exact textLine_linesL E more (level + 1) hmore l hl
theorem textLine_linesL (E : Env) : ∀ (ds : List Doc) (level : Nat), OkL E ds → ∀ l ∈ linesL level ds, TextLine l
  | [], _, _ => by simp [linesL]
  | d :: ds, level, h => by
    intro l hl
    simp only [linesL, List.cons_append, List.mem_cons, List.mem_append] at hl
    rcases hl with rfl | hl | hl
    · exact textLine_ind level (lineOk h.1).plain
    · exact textLine_under E d level h.1 l hl
    · exact textLine_linesL E ds level h.2 l hl
end

theorem textLine_lines {E : Env} {d : Doc} (h : d.Ok E) (level : Nat) : ∀ l ∈ d.lines level, TextLine l := by
  intro l hl
  simp only [lines, List.mem_cons] at hl
  rcases hl with rfl | hl
  · exact textLine_ind level (lineOk h).plain
  · exact textLine_under E d level h l hl

theorem textLine_document {E : Env} {ds : List Doc} (h : OkL E ds) : ∀ l ∈ documentLines ds, TextLine l := by
  induction ds with
  | nil => simp [documentLines]
  | cons d ds ih =>
    intro l hl
    simp only [documentLines, List.mem_append] at hl
    rcases hl with (hl | hl) | hl
    · exact textLine_lines h.1 0 l hl
    · split at hl
      · cases hl
      · rw [List.mem_singleton.1 hl]; exact textLine_nil
    · exact ih h.2 l hl

theorem text_noStatement {E : Env} {ds : List Doc} (h : OkL E ds) : inStr §"{%" (text ds) = false ∧ inStr §"{#" (text ds) = false :=
  ⟨inStr_join (by decide) _ (fun l hl => (textLine_document h l hl).2.1),
   inStr_join (by decide) _ (fun l hl => (textLine_document h l hl).2.2)⟩

/-! ## Reading the lines of a document -/

/-- Blank lines are skipped. -/
theorem Reading.blank {E : Env} {rest : List Str} {b : Build} {P : Build → Prop} (h : P b) : Reading E [[]] rest b P := by
  intro f hf
  cases f with
  | zero => simp at hf
  | succ f => exact ⟨b, f, by simpa using hf, buildLoop_blank, h⟩

theorem read_document (E : Env) (ds : List Doc) (h : Document E ds) (b : Build) (m : Node) (rest : List Str)
    (hb : At b [[]]) (hp : nodeAt b.root [] = some m) :
    Reading E (documentLines ds) rest b fun b' => b'.root = updateAt (addKids (nodes ds)) [] b.root ∧ At b' [[]] := by
  induction ds generalizing b m with
  | nil =>
    refine Reading.nil ⟨?_, hb⟩
    simp [nodes, updateAt_addKids_nil]
  | cons d ds ih =>
    have hd := h.1.1
    have hds : Document E ds := ⟨h.1.2, fun x hx => h.2 x (by simp [hx])⟩
    rw [documentLines]
    refine Reading.append (P := fun b' => b'.root = updateAt (addKids [d.node]) [] b.root ∧ At b' [[]])
      (Reading.append (read_doc E d hd b [] [] m _ hb.ready hp (fun he => by
        rw [h.2 d (by simp)] at he; cases he)) ?_) ?_
    · intro b' hb'
      split
      · exact Reading.nil hb'
      · exact Reading.blank hb'
    · rintro b' ⟨h1, h2⟩
      refine (ih hds b' (addKids [d.node] m) h2 (by rw [h1]; exact nodeAt_updateAt_self _ _ _ hp)).weaken ?_
      rintro b2 ⟨h3, h4⟩
      refine ⟨?_, h4⟩
      rw [h3, h1, updateAt_addKids]
      rfl

theorem documentLines_append (ds : List Doc) (d : Doc) :
    documentLines (ds ++ [d]) = documentLines ds ++ d.lines 0 ++ (if d.isComment then [] else [[]]) := by
  induction ds with
  | nil => simp [documentLines]
  | cons x ds ih => simp [documentLines, ih]

theorem okL_append {E : Env} (as bs : List Doc) : OkL E (as ++ bs) ↔ OkL E as ∧ OkL E bs := by
  simp only [okL_iff]
  constructor
  · intro h; exact ⟨fun d hd => h d (by simp [hd]), fun d hd => h d (by simp [hd])⟩
  · rintro ⟨h1, h2⟩ d hd
    rcases List.mem_append.1 hd with hd | hd
    · exact h1 d hd
    · exact h2 d hd

theorem nodes_append (as bs : List Doc) : nodes (as ++ bs) = nodes as ++ nodes bs := by
  simp [nodes_map]

/-- The line loop on the lines of a text made of a document, perhaps below a blank line. -/
theorem build_document (E : Env) (ds : List Doc) (h : Document E ds) (pre : List Str) (hpre : ∀ l ∈ pre, l = []) :
    ∃ b, buildLoop E (splitlines (joinStr §"\n" (pre ++ documentLines ds))).length
        (splitlines (joinStr §"\n" (pre ++ documentLines ds))) ⟨{ value := .str rootValue }, [[]], 0, []⟩ = .ok b ∧
      b.root = Doc.root ds := by
  have hpl : ∀ (ls : List Str) (b : Build) (rest : List Str), (∀ l ∈ ls, l = []) → Reading E ls rest b (· = b) := by
    intro ls b rest hls
    induction ls with
    | nil => exact Reading.nil rfl
    | cons l ls ih =>
      have hl : l = [] := hls l (by simp)
      subst hl
      exact Reading.append (l1 := [[]]) (l2 := ls) (P := (· = b)) (Reading.blank rfl) (fun b' hb' => by
        subst hb'; exact ih (fun x hx => hls x (by simp [hx])))
  have hblank : ∀ (ls : List Str), (∀ l ∈ ls, l = []) → ∀ n (b : Build), buildLoop E n ls b = .ok b := by
    intro ls hls
    induction ls with
    | nil => intro n b; cases n <;> rfl
    | cons l ls ih =>
      intro n b
      cases n with
      | zero => rfl
      | succ n =>
        have hl : l = [] := hls l (by simp)
        subst hl
        rw [buildLoop_blank]
        exact ih (fun x hx => hls x (by simp [hx])) n b
  have hpreb : ∀ l ∈ pre, ∀ c ∈ l, isLineBreak c = false := by
    intro l hl; rw [hpre l hl]; simp
  rcases List.eq_nil_or_concat ds with rfl | ⟨ds', d, rfl⟩
  · -- nothing but blank lines
    have hall : ∀ l ∈ splitlines (joinStr §"\n" (pre ++ documentLines [])), l = [] := by
      rw [documentLines, List.append_nil]
      rcases List.eq_nil_or_concat pre with rfl | ⟨pre', p, rfl⟩
      · intro l hl; cases hl
      · rw [List.concat_eq_append] at hpre ⊢
        have hp : p = [] := hpre p (by simp)
        subst hp
        by_cases hp' : pre' = []
        · subst hp'; intro l hl; cases hl
        · rw [joinStr_append _ _ _ hp' (by simp)]
          simp only [joinStr, List.append_nil]
          rw [splitlines_join_nl pre' (fun l hl => by rw [hpre l (by simp [hl])]; simp) hp']
          exact fun l hl => hpre l (by simp [hl])
    exact ⟨_, hblank _ hall _ _, rfl⟩
  · rw [List.concat_eq_append] at h ⊢
    have hds := (okL_append ds' [d]).1 h.1
    have hd : d.Ok E := hds.2.1
    have hlines : splitlines (joinStr §"\n" (pre ++ documentLines (ds' ++ [d]))) = (pre ++ documentLines ds') ++ d.lines 0 := by
      rw [documentLines_append]
      have hok : ∀ l ∈ (pre ++ documentLines ds') ++ d.lines 0, ∀ c ∈ l, isLineBreak c = false := by
        intro l hl
        rcases List.mem_append.1 hl with hl | hl
        · rcases List.mem_append.1 hl with hl | hl
          · exact hpreb l hl
          · exact (textLine_document hds.1 l hl).1
        · exact (textLine_lines hd 0 l hl).1
      cases hc : d.isComment with
      | false =>
        simp only [Bool.false_eq_true, if_false]
        rw [← List.append_assoc, ← List.append_assoc, joinStr_append _ _ _ (by simp [lines]) (by simp)]
        simp only [joinStr, List.append_nil]
        exact splitlines_join_nl _ hok (by simp [lines])
      | true =>
        simp only [if_true, List.append_nil]
        rw [← List.append_assoc]
        obtain ⟨t, rfl⟩ : ∃ t, d = .comment t := by
          cases d <;> first | exact ⟨_, rfl⟩ | cases hc
        simp only [lines, under] at hok ⊢
        refine splitlines_join _ _ (fun l hl => hok l (List.mem_append_left _ hl)) (fun c hc => hok _ (by simp) c hc) ?_
        simp [head_ne_nil (lineOk hd)]
    rw [hlines]
    have hD : Document E ds' := ⟨hds.1, fun x hx => h.2 x (by simp [hx])⟩
    have h0 : At (⟨{ value := .str rootValue }, [[]], 0, []⟩ : Build) [[]] := ⟨rfl, List.suffix_refl _⟩
    have hread : Reading E ((pre ++ documentLines ds') ++ d.lines 0) [] ⟨{ value := .str rootValue }, [[]], 0, []⟩
        fun b' => b'.root = updateAt (addKids (nodes (ds' ++ [d]))) [] { value := .str rootValue } := by
      refine Reading.append (Reading.append (P := (· = _)) (hpl pre _ _ hpre) (fun b' hb' => by
        subst hb'
        exact read_document E ds' hD _ { value := .str rootValue } _ h0 rfl)) ?_
      rintro b' ⟨h1, h2⟩
      refine (read_doc E d hd b' [] [] (addKids (nodes ds') { value := .str rootValue }) [] h2.ready (by rw [h1]; rfl) (fun he => by
        rw [h.2 d (by simp)] at he; cases he)).weaken ?_
      rintro b2 ⟨h3, _⟩
      rw [h3, h1, updateAt_addKids, nodes_append]
      rfl
    obtain ⟨b', f', _, he, hb'⟩ := hread (pre ++ documentLines ds' ++ d.lines 0).length (by simp)
    rw [List.append_nil] at he
    refine ⟨b', ?_, ?_⟩
    · rw [he]
      cases f' <;> rfl
    · rw [hb']
      simp [updateAt, addKids, Doc.root, rootValue]

/-- The tree of the text of a document. -/
theorem parseTree_document (E : Env) (ds : List Doc) (h : Document E ds) (content : Str) (pre : List Str) (hpre : ∀ l ∈ pre, l = [])
    (hc : Regex.jinjaV0Line.sub (fun _ => []) content = joinStr §"\n" (pre ++ documentLines ds)) :
    parseTree E content = .ok (Doc.root ds) := by
  obtain ⟨b, hb, hr⟩ := build_document E ds h pre hpre
  unfold parseTree
  simp only [hc, hb, bind, Except.bind, hr]

end Crm

import Verif.Spec.Document
import Verif.Lemmas.Marker
import Verif.Examples.ToyYaml

/-!
# Deciding whether a document is well formed

Only used to exhibit concrete documents: a Boolean check that implies `Doc.Document`.
-/

namespace Crm
open Spec Doc

def noTrailB : Str → Bool
  | [] => true
  | w :: cs => !(isSpace w && cs.head? == some '#') && noTrailB cs

theorem noTrailB_sound {t : Str} (h : noTrailB t = true) : NoTrail t := by
  intro a w b ht
  induction a generalizing t with
  | nil =>
    subst ht
    cases hw : isSpace w
    · rfl
    · simp [noTrailB, hw] at h
  | cons d a ih =>
    subst ht
    simp only [List.cons_append, noTrailB, Bool.and_eq_true] at h
    exact ih h.2 rfl

def plainB (t : Str) : Bool :=
  (strip t == t) && t.all (fun c => !isLineBreak c) && !inStr §"{%" t && !inStr §"{#" t

theorem plainB_sound {t : Str} (h : plainB t = true) : Plain t := by
  simp only [plainB, Bool.and_eq_true, beq_iff_eq, List.all_eq_true, Bool.not_eq_true'] at h
  exact ⟨h.1.1.1, h.1.1.2, h.1.2, h.2⟩

def readsB (E : Env) (line : Str) : Doc → Bool
  | comment _ => match parseYaml E line with | .ok _ => true | _ => false
  | empty k _ => match parseYaml E line with | .ok v => v == .dict [(k, .none)] | _ => false
  | scalar k _ v _ => match parseYaml E line with | .ok v' => v' == .dict [(k, v)] | _ => false
  | multi k _ _ _ => match parseYaml E line with | .ok (.dict [(k', _)]) => k' == k | _ => false
  | block k _ _ => match parseYaml E line with | .ok v => v == .dict [(k, .none)] | _ => false
  | item _ v _ => match parseYaml E line with | .ok v' => v' == .list [v] | _ => false
  | elem (scalar k _ v _) _ => match parseYaml E line with | .ok v' => v' == .list [.dict [(k, v)]] | _ => false
  | elem (block k _ _) _ => match parseYaml E line with | .ok v' => v' == .list [.dict [(k, .none)]] | _ => false
  | elem _ _ => false

theorem readsB_sound {E : Env} {line : Str} {d : Doc} (h : readsB E line d = true) : d.Reads E line := by
  unfold readsB at h
  split at h <;> (try cases h)
  all_goals
    split at h
    · rename_i hp
      first
      | exact ⟨_, hp⟩
      | (obtain rfl := beq_iff_eq.1 h; exact hp)
      | (obtain rfl := beq_iff_eq.1 h; exact ⟨_, hp⟩)
    · cases h

def lineOkB (E : Env) (d : Doc) : Bool :=
  plainB d.head && (d.base != []) && (strip d.base == d.base) && readsB E d.head d

theorem lineOkB_sound {E : Env} {d : Doc} (h : lineOkB E d = true) : LineOk E d := by
  simp only [lineOkB, Bool.and_eq_true, bne_iff_ne, beq_iff_eq] at h
  exact ⟨plainB_sound h.1.1.1, ⟨h.1.1.2, h.1.2⟩, readsB_sound h.2⟩

def lineB (d : Doc) : Bool :=
  ((d.trail == []) || (d.trail.head? == some '#')) && noTrailB d.base && (d.base.head? != some '#')

theorem lineB_sound {d : Doc} (h : lineB d = true) : Line d := by
  simp only [lineB, Bool.and_eq_true, bne_iff_ne, Bool.or_eq_true, beq_iff_eq] at h
  refine ⟨?_, noTrailB_sound h.1.2, ?_⟩
  · rcases h.1.1 with h | h
    · exact Or.inl h
    · right
      cases ht : d.trail with
      | nil => rw [ht] at h; cases h
      | cons c t => rw [ht] at h; simp at h; exact ⟨t, by rw [h]⟩
  · intro u hu
    exact h.2 (by rw [hu]; rfl)

def isDict : PyVal → Bool
  | .dict _ => true
  | _ => false

def blockB (cs : List Doc) : Bool :=
  match cs with
  | [] => false
  | [d] => !d.isEmpty
  | _ => true

theorem blockB_sound {cs : List Doc} (h : blockB cs = true) : cs ≠ [] ∧ ∀ d, cs = [d] → d.isEmpty = false := by
  refine ⟨?_, ?_⟩
  · rintro rfl; cases h
  · rintro d rfl; simpa [blockB] using h

mutual
def okB (E : Env) : Doc → Bool
  | comment t => lineOkB E (comment t) && (t.head? == some '#') && noMarkerB t
  | empty k c => lineOkB E (empty k c) && lineB (empty k c) && noMarkerB (empty k c).head && (yamlText (.str k) == k)
  | scalar k vt v c => lineOkB E (scalar k vt v c) && lineB (scalar k vt v c) && noMarkerB (scalar k vt v c).head &&
      (v != .none) && (v != .sentinel) && (vt == yamlText v)
  | multi k m c body => lineOkB E (multi k m c body) && lineB (multi k m c body) && noMarkerB c &&
      decide (m ∈ [Multiline.pipe, .pipePlus, .pipeMinus, .rAngle, .rAnglePlus, .rAngleMinus]) && body.all plainB
  | block k c cs => lineOkB E (block k c cs) && lineB (block k c cs) && noMarkerB (block k c cs).head && blockB cs && okLB E cs
  | item vt v c => lineOkB E (item vt v c) && lineB (item vt v c) && noMarkerB (item vt v c).head &&
      !isDict v && (v != .sentinel) && (vt == yamlText v)
  | elem first rest => lineOkB E (elem first rest) && lineB (elem first rest) && noMarkerB (elem first rest).head &&
      first.canLead && leadB E first && rest.all (fun d => d.keyOf != first.keyOf) && okLB E rest
def okLB (E : Env) : List Doc → Bool
  | [] => true
  | d :: ds => okB E d && okLB E ds
def leadB (E : Env) : Doc → Bool
  | scalar _ vt v _ => (v != .none) && (v != .sentinel) && (vt == yamlText v)
  | block _ _ cs => blockB cs && okLB E cs
  | _ => false
end

mutual
theorem okB_sound (E : Env) : ∀ d : Doc, okB E d = true → d.Ok E
  | comment t, h => by
    simp only [okB, Bool.and_eq_true, beq_iff_eq] at h
    refine ⟨lineOkB_sound h.1.1, ?_, noMarkerB_sound h.2⟩
    cases t with
    | nil => cases h.1.2
    | cons c t => have := h.1.2; simp at this; exact ⟨t, by rw [this]⟩
  | empty k c, h => by
    simp only [okB, Bool.and_eq_true, beq_iff_eq] at h
    exact ⟨lineOkB_sound h.1.1.1, lineB_sound h.1.1.2, noMarkerB_sound h.1.2, h.2⟩
  | scalar k vt v c, h => by
    simp only [okB, Bool.and_eq_true, beq_iff_eq, bne_iff_ne] at h
    exact ⟨lineOkB_sound h.1.1.1.1.1, lineB_sound h.1.1.1.1.2, noMarkerB_sound h.1.1.1.2, h.1.1.2, h.1.2, h.2⟩
  | multi k m c body, h => by
    simp only [okB, Bool.and_eq_true, List.all_eq_true, decide_eq_true_eq] at h
    exact ⟨lineOkB_sound h.1.1.1.1, lineB_sound h.1.1.1.2, noMarkerB_sound h.1.1.2, h.1.2, fun l hl => plainB_sound (h.2 l hl)⟩
  | block k c cs, h => by
    simp only [okB, Bool.and_eq_true] at h
    exact ⟨lineOkB_sound h.1.1.1.1, lineB_sound h.1.1.1.2, noMarkerB_sound h.1.1.2, (blockB_sound h.1.2).1, (blockB_sound h.1.2).2,
      okLB_sound E cs h.2⟩
  | item vt v c, h => by
    simp only [okB, Bool.and_eq_true, beq_iff_eq, bne_iff_ne, Bool.not_eq_true'] at h
    refine ⟨lineOkB_sound h.1.1.1.1.1, lineB_sound h.1.1.1.1.2, noMarkerB_sound h.1.1.1.2, ?_, h.1.2, h.2⟩
    rintro kvs rfl
    exact Bool.noConfusion h.1.1.2
  | elem first rest, h => by
    simp only [okB, Bool.and_eq_true, List.all_eq_true, bne_iff_ne] at h
    exact ⟨lineOkB_sound h.1.1.1.1.1.1, lineB_sound h.1.1.1.1.1.2, noMarkerB_sound h.1.1.1.1.2, h.1.1.1.2, leadB_sound E first h.1.1.2,
      h.1.2, okLB_sound E rest h.2⟩
theorem okLB_sound (E : Env) : ∀ ds : List Doc, okLB E ds = true → OkL E ds
  | [], _ => trivial
  | d :: ds, h => by
    simp only [okLB, Bool.and_eq_true] at h
    exact ⟨okB_sound E d h.1, okLB_sound E ds h.2⟩
theorem leadB_sound (E : Env) : ∀ d : Doc, leadB E d = true → Lead E d
  | scalar _ vt v _, h => by
    simp only [leadB, Bool.and_eq_true, beq_iff_eq, bne_iff_ne] at h
    exact ⟨h.1.1, h.1.2, h.2⟩
  | block _ _ cs, h => by
    simp only [leadB, Bool.and_eq_true] at h
    exact ⟨(blockB_sound h.1).1, (blockB_sound h.1).2, okLB_sound E cs h.2⟩
  | comment _, h => by simp [leadB] at h
  | empty _ _, h => by simp [leadB] at h
  | multi _ _ _ _, h => by simp [leadB] at h
  | item _ _ _, h => by simp [leadB] at h
  | elem _ _, h => by simp [leadB] at h
end

def documentB (E : Env) (ds : List Doc) : Bool := okLB E ds && ds.all (fun d => !d.endsInText)

theorem documentB_sound {E : Env} {ds : List Doc} (h : documentB E ds = true) : Document E ds := by
  simp only [documentB, Bool.and_eq_true, List.all_eq_true, Bool.not_eq_true'] at h
  exact ⟨okLB_sound E ds h.1, h.2⟩

/-- A document with every kind of entry. -/
def sampleDoc : List Doc :=
  [ comment §"# A recipe",
    block §"package" [] [scalar §"name" §"{{ name }}" (.str §"{{ name }}") [], scalar §"version" §"1.2" (.flt §"1.2") §"# [win]"],
    block §"source" [] [
      elem (scalar §"url" §"a.tgz" (.str §"a.tgz") §"# [unix]") [comment §"# why", scalar §"sha256" §"abc" (.str §"abc") [],
        block §"patches" [] [item §"p1" (.str §"p1") §"# [osx]", comment §"# last", item §"2" (.int 2) []]],
      elem (block §"git" §"# c" [item §"x" (.str §"x") []]) []],
    block §"build" §"# [linux]" [scalar §"number" §"0" (.int 0) [],
      multi §"script" .pipe §"# [win]" [§"make", §"make install"],
      empty §"ignore" §"# none",
      block §"skip" [] [elem (scalar §"a" §"true" (.bool true) []) [multi §"t" .rAngleMinus [] [§"line"], scalar §"b" §"2" (.int 2) []]]],
    empty §"about" [],
    scalar §"extra" §"{}" (.dict []) [],
    item §"loose" (.str §"loose") [],
    comment §"# end" ]

def sampleVars : List (Str × PyVal) := [(§"name", .str §"foo"), (§"n", .int 3), (§"b", .bool true)]

end Crm

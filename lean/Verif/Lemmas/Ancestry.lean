/-
The table of `Ancestory::ById` against the element hierarchy, and against the grammar.
-/
import Verif.Spec.Ancestry
import Verif.Lemmas.WebmDoc

namespace Verif.Web
open Verif Verif.Spec

/-- Every element of the hierarchy, with its parent. -/
def edges : List (Nat × Nat) := hierarchy.flatMap (fun x => x.2.map (fun c => (x.1, c)))

theorem mem_edges {p c : Nat} : (p, c) ∈ edges ↔ ParentOf p c := by
  unfold edges ParentOf
  simp only [List.mem_flatMap, List.mem_map, Prod.mk.injEq]
  constructor
  · rintro ⟨⟨a, l⟩, h1, c', h2, h3, h4⟩
    cases h3; cases h4
    exact ⟨l, h1, h2⟩
  · rintro ⟨l, h1, h2⟩
    exact ⟨(p, l), h1, c, h2, rfl, rfl⟩

/-- The parent in the hierarchy. -/
def parent (id : Nat) : Option Nat := (edges.find? (fun e => e.2 == id)).map (·.1)

theorem parent_unique : ∀ e ∈ edges, ∀ e' ∈ edges, e.2 = e'.2 → e.1 = e'.1 := by decide +kernel

theorem not_root : ∀ e ∈ edges, e.2 ∉ rootIds := by decide +kernel

theorem ancestors_unique {id : Nat} {a b : List Nat} (ha : Ancestors id a) (hb : Ancestors id b) :
    a = b := by
  induction ha generalizing b with
  | root h =>
    cases hb with
    | root _ => rfl
    | child hp _ => exact absurd h (not_root _ (mem_edges.2 hp))
  | child hp _ ih =>
    cases hb with
    | root h => exact absurd h (not_root _ (mem_edges.2 hp))
    | child hp' hb' =>
      have := parent_unique _ (mem_edges.2 hp) _ (mem_edges.2 hp') rfl
      simp only at this
      subst this
      rw [ih hb']

/-- Whether `anc` (innermost first) is the chain of `id`. -/
def chainOk : Nat → List Nat → Bool
  | id, [] => rootIds.contains id
  | id, p :: rest => edges.contains (p, id) && chainOk p rest

theorem chainOk_spec : ∀ (anc : List Nat) (id : Nat), chainOk id anc = true →
    Ancestors id anc.reverse
  | [], id, h => .root (by simpa [chainOk] using h)
  | p :: rest, id, h => by
    simp only [chainOk, Bool.and_eq_true, List.contains_iff_mem] at h
    rw [List.reverse_cons]
    exact .child (mem_edges.1 h.1) (chainOk_spec rest p h.2)

theorem ite_step {id : Nat} {l : List Nat} {a b : Option (List Nat)}
    (hl : ∀ x ∈ l, x ∈ Id.all) (hb : b ≠ none → id ∈ Id.all) :
    (if id ∈ l then a else b) ≠ none → id ∈ Id.all := by
  intro h
  split at h
  · next hm => exact hl id hm
  · exact hb h

/-- Every ID with an entry is in the enumeration. -/
theorem ancestory_mem {id : Nat} : ancestory id ≠ none → id ∈ Id.all := by
  unfold ancestory
  repeat refine ite_step (by decide +kernel) ?_
  exact fun h => absurd rfl h

theorem ancestory_ok : ∀ id ∈ Id.all,
    (match ancestory id with
      | some anc => chainOk id anc.reverse
      | none => colourAndProjection.contains id || id == 0xEC) = true := by decide +kernel

theorem ancestory_path : ∀ id ∈ Id.all,
    (match ancestory id with
      | some [] => rootIds.contains id
      | some (a :: rest) => topKids.path a rest id
      | none => true) = true := by decide +kernel

theorem edges_all : ∀ e ∈ edges, e.2 ∈ Id.all := by decide +kernel

theorem root_all : ∀ id ∈ rootIds, id ∈ Id.all := by decide +kernel

theorem colour_none : ∀ id ∈ colourAndProjection, ancestory id = none := by decide +kernel

theorem void_no_edge : ∀ e ∈ edges, e.2 ≠ 0xEC := by decide +kernel

theorem webm_ancOk (cb : Cb) : AncOk (webmTop.kids.find cb) webmTop.root webmTop.anc := by
  intro m hr p hp
  have hp : ancestory m.id = some p := hp
  have hm := ancestory_mem (id := m.id) (by rw [hp]; simp)
  have := ancestory_path _ hm
  rw [hp] at this
  cases p with
  | nil =>
    simp only [rootIds, List.contains_iff_mem] at this
    exfalso
    have hr : (m.id == Id.kSegment || m.id == Id.kEbml) = false := hr
    simp only [Id.kSegment, Id.kEbml, Bool.or_eq_false_iff, beq_eq_false_iff_ne] at hr
    simp only [List.mem_cons, List.not_mem_nil, or_false] at this
    rcases this with h | h
    · exact hr.2 h
    · exact hr.1 h
  | cons a rest => exact ⟨a, rest, rfl, Kids.seek_of_path cb topKids a rest m this⟩

end Verif.Web

namespace Verif.Web
open Verif Verif.Spec

/-- Seeked to an element `m` with ancestors `anc`, the first thing the parser does is to announce
`m`; `st` is the answer. -/
def EP.Announces (E : EP) (L : Log) (st : Status) (anc : List Nat) (m : Meta) : Prop :=
  ∀ p, E.seek anc m = some p → ∀ s, ∃ p', E.feed false (p, L) s = (st, (p', L ++ [.element m]), s, 0)

theorem Leaf.no_seek (cb : Cb) (l : Leaf) (anc : List Nat) (m : Meta) :
    (l.parser cb).seek anc m = none := by
  cases l <;> rfl

theorem Leaf.announces (cb : Cb) (l : Leaf) (L : Log) (st : Status) (anc : List Nat) (m : Meta) :
    (l.parser cb).Announces L st anc m := by
  intro p hp
  rw [Leaf.no_seek] at hp
  cases hp

theorem dataEP_announces (cb : Cb) (bad : Status) (ev : Meta → Bytes → Ev) (L : Log) (st : Status)
    (anc : List Nat) (m : Meta) : (dataEP cb bad ev).Announces L st anc m := by
  intro p hp
  cases hp

theorem MSt.announces {kid : Nat → Kid} {cb : Cb} {w : Wrap} {known : Nat → Bool} {L : Log}
    {st : Status} {m : Meta} (hst : st.completedOk = false) (hc : (cb L (.element m)).1 = st)
    (h : ∀ a rest, (kid a).E.Announces L st rest m) (anc : List Nat) :
    (masterEP cb w known kid).Announces L st anc m := by
  intro p hp s
  have hp : MSt.seek w known anc m = some p := hp
  show ∃ p', loopFeed (MSt.body cb w known false) MSt.measure (p, L) s = _
  have key : (∃ p', MSt.body cb w known false (p, L) s = (some st, (p', L ++ [.element m]), s, 0)) →
      ∃ p', loopFeed (MSt.body cb w known false) MSt.measure (p, L) s =
        (st, (p', L ++ [.element m]), s, 0) := fun ⟨p', hb⟩ => ⟨p', loopFeed_ret hb⟩
  unfold MSt.seek at hp
  cases anc with
  | nil =>
    simp only at hp
    split at hp
    · cases hp
      refine key ?_
      simp only [MSt.body, Cb.call, Bool.or_self, Bool.false_eq_true, if_false, hc, hst]
      exact ⟨_, rfl⟩
    · cases hp
  | cons a rest =>
    simp only at hp
    split at hp
    · split at hp
      · next c hc' =>
        cases hp
        obtain ⟨c', hf⟩ := h a rest c hc' s
        refine key ?_
        simp only [MSt.body, MSt.needStart, Bool.not_true, Bool.and_false, Bool.false_and,
          Bool.false_eq_true, if_false, Bool.or_self, ChildSt.feed, hf, hst]
        exact ⟨_, rfl⟩
      · cases hp
    · cases hp

mutual
theorem Gram.announces (cb : Cb) {L : Log} {st : Status} {m : Meta}
    (hst : st.completedOk = false) (hc : (cb L (.element m)).1 = st) :
    ∀ (g : Gram) (anc : List Nat), (g.parser cb).Announces L st anc m
  | .leaf l, anc => by rw [Gram.parser]; exact l.announces cb L st anc m
  | .master w ks, anc => by
    rw [Gram.parser]
    exact MSt.announces hst hc (fun a rest => Kids.announces cb hst hc ks a rest) anc
theorem Kids.announces (cb : Cb) {L : Log} {st : Status} {m : Meta}
    (hst : st.completedOk = false) (hc : (cb L (.element m)).1 = st) :
    ∀ (ks : Kids) (a : Nat) (rest : List Nat), (ks.find cb a).E.Announces L st rest m
  | .nil, a, rest => by
    rw [Kids.find]
    show (if a = kVoid then voidEP cb else unknownEP cb).Announces L st rest m
    split
    · exact dataEP_announces _ _ _ _ _ _ _
    · exact dataEP_announces _ _ _ _ _ _ _
  | .cons i _ _ g ks, a, rest => by
    rw [Kids.find]
    split
    · exact Gram.announces cb hst hc g rest
    · exact Kids.announces cb hst hc ks a rest
end

end Verif.Web

/-
Lemmas for C89: every allocation of a track has one owner.
-/
import Verif.Lemmas.MuxerBuild
import Verif.Spec.TrackBuilding

namespace Verif.Mux.Build
open Verif Verif.Spec

theorem _root_.Verif.Spec.Enough.alloc {can : Nat → Bool} (h : Enough can) {m m' : Mem} : m.alloc can ≠ (none, m') := by
  unfold Mem.alloc
  rw [if_pos (h _)]
  intro h; cases h

def ptrA {α : Type} (p : Option (Nat × α)) : List Nat := (p.map (·.1)).toList

def delA {α : Type} (g : α → List Nat) : Option (Nat × α) → List Nat
  | none => []
  | some (a, x) => a :: g x

def mmA (x : HeapMM) : List Nat := ptrA x.r ++ ptrA x.g ++ ptrA x.b ++ ptrA x.whitePoint

def colA (c : HeapColour) : List Nat := delA mmA c.mastering

def proA (p : HeapProjection) : List Nat := strA p.data

def itemA (x : Nat × Str) : List Nat := x.1 :: strA x.2

def encA (e : Encodings) : List Nat := e.addr.toList ++ e.items.flatMap itemA

def ownA (t : Owned) : List Nat :=
  strA t.codecId ++ strA t.language ++ strA t.name ++ strA t.colourSpace ++ strA t.codecPrivate ++ delA colA t.colour ++
    delA proA t.projection ++ encA t.encodings

theorem setStr_spec {can : Nat → Bool} {m : Mem} {src : Option Bytes} {dst : Str} {f : Nat → Nat}
    (h : Holds m fun a => (strA dst).count a + f a) :
    ∃ s m', setStr can src dst m = .ok (s, m') ∧ Holds m' (fun a => (strA s).count a + f a) ∧
      (s.map (·.2) = (if src = none then dst.map (·.2) else src) ∨ src ≠ none ∧ s = none) ∧
      (Enough can → s.map (·.2) = if src = none then dst.map (·.2) else src) := by
  cases src with
  | none => exact ⟨dst, m, rfl, h, .inl rfl, fun _ => rfl⟩
  | some b =>
    obtain ⟨m1, e1, h1⟩ := free_spec h
    unfold setStr
    simp only
    rw [e1]
    rcases e2 : m1.alloc can with ⟨p, m2⟩
    have h2 := alloc_spec h1 e2
    cases p with
    | none =>
      refine ⟨none, m2, ?_, h2.of fun a => by simp [strA], .inr ⟨by simp, rfl⟩, fun hc => absurd e2 hc.alloc⟩
      show (match m1.alloc can with | (none, m) => _ | (some a, m) => _) = _
      rw [e2]
    | some x =>
      refine ⟨some (x, b), m2, ?_, h2.of fun a => by simp [strA], .inl rfl, fun _ => rfl⟩
      show (match m1.alloc can with | (none, m) => _ | (some a, m) => _) = _
      rw [e2]

theorem setBytes_spec {can : Nat → Bool} {m : Mem} {src : Option Bytes} {dst : Str} {f : Nat → Nat}
    (h : Holds m fun a => (strA dst).count a + f a) :
    ∃ ok s m', setBytes can src dst m = .ok (ok, s, m') ∧ Holds m' (fun a => (strA s).count a + f a) ∧
      (ok = true → usable src = true ∧ s.map (·.2) = src) ∧
      (ok = false → s.map (·.2) = if usable src then none else dst.map (·.2)) ∧ (Enough can → ok = usable src) := by
  cases src with
  | none => exact ⟨false, dst, m, rfl, h, (fun h => by cases h), fun _ => rfl, fun _ => rfl⟩
  | some b =>
    cases b with
    | nil => exact ⟨false, dst, m, rfl, h, (fun h => by cases h), fun _ => rfl, fun _ => rfl⟩
    | cons c b =>
      obtain ⟨m1, e1, h1⟩ := free_spec h
      unfold setBytes
      simp only
      rw [if_neg (by simp), e1]
      rcases e2 : m1.alloc can with ⟨p, m2⟩
      have h2 := alloc_spec h1 e2
      cases p with
      | none =>
        refine ⟨false, none, m2, ?_, h2.of fun a => by simp [strA], (fun h => by cases h), fun _ => rfl, fun hc => absurd e2 hc.alloc⟩
        show (match m1.alloc can with | (none, m) => _ | (some a, m) => _) = _
        rw [e2]
      | some x =>
        refine ⟨true, some (x, c :: b), m2, ?_, h2.of fun a => by simp [strA], fun _ => ⟨rfl, rfl⟩, (fun h => by cases h), fun _ => rfl⟩
        show (match m1.alloc can with | (none, m) => _ | (some a, m) => _) = _
        rw [e2]

theorem copyChromaticity_spec {can : Nat → Bool} {c : Option Chromaticity} {m m' : Mem} {p : Option (Nat × Chromaticity)} {f : Nat → Nat}
    (h : Holds m f) (e : copyChromaticity can c m = (p, m')) :
    Holds m' (fun a => (ptrA p).count a + f a) ∧ (p.map (·.2) = c ∨ p.map (·.2) = none) ∧ (Enough can → p.map (·.2) = c) := by
  cases c with
  | none => cases e; exact ⟨h.of fun a => by simp [ptrA], .inl rfl, fun _ => rfl⟩
  | some c =>
    unfold copyChromaticity at e
    simp only at e
    rcases e2 : m.alloc can with ⟨q, m2⟩
    rw [e2] at e
    have h2 := alloc_spec h e2
    cases q with
    | none => cases e; exact ⟨h2.of fun a => by simp [ptrA], .inr rfl, fun hc => absurd e2 hc.alloc⟩
    | some x => cases e; exact ⟨h2.of fun a => by simp [ptrA], .inl rfl, fun _ => rfl⟩

theorem setChromaticity_spec {can : Nat → Bool} {r g b w : Option Chromaticity} {x x' : HeapMM} {m m' : Mem} {f : Nat → Nat}
    (h : Holds m f) (e : x.setChromaticity can r g b w m = (x', m')) :
    Holds m' (fun a => (mmA x').count a + f a) ∧ x'.luminanceMax = x.luminanceMax ∧ x'.luminanceMin = x.luminanceMin ∧
      (x'.r.map (·.2) = r ∨ x'.r.map (·.2) = none) ∧ (x'.g.map (·.2) = g ∨ x'.g.map (·.2) = none) ∧
      (x'.b.map (·.2) = b ∨ x'.b.map (·.2) = none) ∧ (x'.whitePoint.map (·.2) = w ∨ x'.whitePoint.map (·.2) = none) ∧
      (Enough can → x'.r.map (·.2) = r ∧ x'.g.map (·.2) = g ∧ x'.b.map (·.2) = b ∧ x'.whitePoint.map (·.2) = w) := by
  unfold HeapMM.setChromaticity at e
  rcases e1 : copyChromaticity can r m with ⟨p1, m1⟩
  obtain ⟨h1, a1, b1⟩ := copyChromaticity_spec h e1
  rcases e2 : copyChromaticity can g m1 with ⟨p2, m2⟩
  obtain ⟨h2, a2, b2⟩ := copyChromaticity_spec h1 e2
  rcases e3 : copyChromaticity can b m2 with ⟨p3, m3⟩
  obtain ⟨h3, a3, b3⟩ := copyChromaticity_spec h2 e3
  rcases e4 : copyChromaticity can w m3 with ⟨p4, m4⟩
  obtain ⟨h4, a4, b4⟩ := copyChromaticity_spec h3 e4
  simp only [e1, e2, e3, e4] at e
  cases e
  exact ⟨h4.of fun a => by simp only [mmA, List.count_append]; omega, rfl, rfl, a1, a2, a3, a4, fun hc => ⟨b1 hc, b2 hc, b3 hc, b4 hc⟩⟩

/-- `destroy` frees what `g` says. -/
def Frees {α : Type} (g : α → List Nat) (destroy : α → Mem → Res Mem) : Prop :=
  ∀ x m f, Holds m (fun a => (g x).count a + f a) → ∃ m', destroy x m = .ok m' ∧ Holds m' f

theorem deleteObj_spec {α : Type} {g : α → List Nat} {destroy : α → Mem → Res Mem} (hd : Frees g destroy) {p : Option (Nat × α)} {m : Mem}
    {f : Nat → Nat} (h : Holds m fun a => (delA g p).count a + f a) : ∃ m', deleteObj destroy p m = .ok m' ∧ Holds m' f := by
  cases p with
  | none => exact ⟨m, rfl, h.of fun a => by simp [delA]⟩
  | some p =>
    obtain ⟨b, x⟩ := p
    obtain ⟨m1, e1, h1⟩ := hd x m (fun a => [b].count a + f a) (h.of fun a => by
      simp only [delA, List.count_cons, List.count_nil]; omega)
    obtain ⟨m2, e2, h2⟩ := free_spec (p := some b) (f := f) (h1.of fun a => by simp)
    refine ⟨m2, ?_, h2⟩
    unfold deleteObj
    simp only
    rw [e1]
    exact e2

theorem mm_frees : Frees mmA HeapMM.destroy := by
  intro x m f h
  obtain ⟨m1, e1, h1⟩ := free_spec (p := x.r.map (·.1)) (f := fun a => (ptrA x.g).count a + (ptrA x.b).count a +
    (ptrA x.whitePoint).count a + f a) (h.of fun a => by simp only [mmA, List.count_append, ptrA]; omega)
  obtain ⟨m2, e2, h2⟩ := free_spec (p := x.g.map (·.1)) (f := fun a => (ptrA x.b).count a +
    (ptrA x.whitePoint).count a + f a) (h1.of fun a => by simp only [ptrA]; omega)
  obtain ⟨m3, e3, h3⟩ := free_spec (p := x.b.map (·.1)) (f := fun a => (ptrA x.whitePoint).count a + f a)
    (h2.of fun a => by simp only [ptrA]; omega)
  obtain ⟨m4, e4, h4⟩ := free_spec (p := x.whitePoint.map (·.1)) (f := f) (h3.of fun a => by simp only [ptrA])
  refine ⟨m4, ?_, h4⟩
  unfold HeapMM.destroy
  rw [e1, Res.bind_ok, e2, Res.bind_ok, e3, Res.bind_ok, e4]

theorem col_frees : Frees colA HeapColour.destroy := fun _ _ _ h => deleteObj_spec mm_frees h

theorem pro_frees : Frees proA HeapProjection.destroy := fun _ _ _ h => free_spec h

theorem setColour_spec {can : Nat → Bool} {c : Colour} {old : Option (Nat × HeapColour)} {m : Mem} {f : Nat → Nat}
    (h : Holds m fun a => (delA colA old).count a + f a) :
    ∃ ok p m', setColour can c old m = .ok (ok, p, m') ∧ Holds m' (fun a => (delA colA p).count a + f a) ∧
      (ok = true → ∃ c', Faded c c' ∧ p.map (fun c => { c.2.plain with mastering := c.2.mastering.map fun x => mmShown x.2 }) = some c') ∧
      (ok = false → p = old) ∧
      (Enough can → ok = true ∧ p.map (fun c => { c.2.plain with mastering := c.2.mastering.map fun x => mmShown x.2 }) = some c) := by
  unfold setColour
  rcases e1 : m.alloc can with ⟨q, m1⟩
  have h1 := alloc_spec h e1
  cases q with
  | none => exact ⟨false, old, m1, rfl, h1.of fun a => by simp, (fun h => by cases h), fun _ => rfl, fun hc => absurd e1 hc.alloc⟩
  | some x =>
    simp only
    cases hm : c.mastering with
    | none =>
      simp only [Res.bind_ok, Bool.not_true, Bool.false_eq_true, if_false]
      obtain ⟨m2, e2, h2⟩ := deleteObj_spec col_frees (p := old) (f := fun a => [x].count a + f a) (h1.of fun a => by
        simp only [Option.toList_some]; omega)
      refine ⟨true, _, m2, by rw [e2, Res.bind_ok], h2.of fun a => by simp [delA, colA], fun _ => ⟨c, ⟨rfl, by rw [hm]; trivial⟩, ?_⟩,
        (fun h => by cases h), fun _ => ⟨rfl, ?_⟩⟩
      all_goals
        simp only [Option.map_some, Option.map_none]
        rw [← hm]
    | some mm =>
      simp only
      unfold HeapColour.setMastering
      rcases e2 : m1.alloc can with ⟨q2, m2⟩
      have h2 := alloc_spec h1 e2
      cases q2 with
      | none =>
        simp only [Res.bind_ok, Bool.not_false, if_true]
        obtain ⟨m3, e3, h3⟩ := deleteObj_spec col_frees (p := some (x, {})) (m := m2) (f := fun a => (delA colA old).count a + f a)
          (h2.of fun a => by simp [delA, colA])
        exact ⟨false, old, m3, by rw [e3, Res.bind_ok], h3, (fun h => by cases h), fun _ => rfl, fun hc => absurd e2 hc.alloc⟩
      | some y =>
        rcases e3 : HeapMM.setChromaticity can mm.r mm.g mm.b mm.whitePoint
          { luminanceMax := mm.luminanceMax, luminanceMin := mm.luminanceMin } m2 with ⟨z, m3⟩
        obtain ⟨h3, l1, l2, l3, l4, l5, l6, l7⟩ := setChromaticity_spec h2 e3
        simp only [e3]
        obtain ⟨m5, e5, h5⟩ := deleteObj_spec col_frees (p := old) (m := m3) (f := fun a => [x].count a + [y].count a + (mmA z).count a + f a)
          (h3.of fun a => by simp only [Option.toList_some]; omega)
        have e4' : deleteObj HeapMM.destroy none m3 = .ok m3 := rfl
        simp only [e4', Res.bind_ok, Bool.not_true, Bool.false_eq_true, if_false]
        refine ⟨true, _, m5, by rw [e5, Res.bind_ok], h5.of fun a => by
            simp only [delA, colA, List.count_cons, List.count_nil]; omega,
          fun _ => ⟨_, ⟨?_, ?_⟩, rfl⟩, (fun h => by cases h), fun hc => ⟨rfl, ?_⟩⟩
        · rfl
        · rw [hm]
          exact ⟨l1.symm, l2.symm, l3, l4, l5, l6⟩
        · obtain ⟨k1, k2, k3, k4⟩ := l7 hc
          have : mmShown z = mm := by
            unfold mmShown
            rw [l1, l2, k1, k2, k3, k4]
          simp only [Option.map_some, this]
          rw [← hm]

theorem setProjection_spec {can : Nat → Bool} {c : Projection} {old : Option (Nat × HeapProjection)} {m : Mem} {f : Nat → Nat}
    (h : Holds m fun a => (delA proA old).count a + f a) :
    ∃ ok p m', setProjection can c old m = .ok (ok, p, m') ∧ Holds m' (fun a => (delA proA p).count a + f a) ∧
      (ok = true → c.privateData ≠ some [] ∧
        p.map (fun p => { p.2.plain with privateData := p.2.data.map (·.2) }) = some c) ∧
      (ok = false → p = old) ∧ (Enough can → ok = (c.privateData != some [])) := by
  unfold setProjection
  rcases e1 : m.alloc can with ⟨q, m1⟩
  have h1 := alloc_spec h e1
  cases q with
  | none => exact ⟨false, old, m1, rfl, h1.of fun a => by simp, (fun h => by cases h), fun _ => rfl, fun hc => absurd e1 hc.alloc⟩
  | some x =>
    simp only
    cases hm : c.privateData with
    | none =>
      simp only [Res.bind_ok, Bool.not_true, Bool.false_eq_true, if_false]
      obtain ⟨m2, e2, h2⟩ := deleteObj_spec pro_frees (p := old) (f := fun a => [x].count a + f a) (h1.of fun a => by
        simp only [Option.toList_some]; omega)
      refine ⟨true, _, m2, by rw [e2, Res.bind_ok], h2.of fun a => by simp [delA, proA, strA], fun _ => ⟨by simp, ?_⟩,
        (fun h => by cases h), fun _ => by simp⟩
      simp only [Option.map_some, Option.map_none]
      rw [← hm]
    | some b =>
      simp only
      unfold HeapProjection.setPrivate
      cases b with
      | nil =>
        simp only [List.length_nil, if_true, Res.bind_ok, Bool.not_false]
        obtain ⟨m3, e3, h3⟩ := deleteObj_spec pro_frees (p := some (x, {})) (m := m1) (f := fun a => (delA proA old).count a + f a)
          (h1.of fun a => by simp [delA, proA, strA])
        exact ⟨false, old, m3, by rw [e3, Res.bind_ok], h3, (fun h => by cases h), fun _ => rfl, fun _ => by simp⟩
      | cons c0 b =>
        rw [if_neg (by simp)]
        rcases e2 : m1.alloc can with ⟨q2, m2⟩
        have h2 := alloc_spec h1 e2
        cases q2 with
        | none =>
          simp only [Res.bind_ok, Bool.not_false, if_true]
          obtain ⟨m3, e3, h3⟩ := deleteObj_spec pro_frees (p := some (x, {})) (m := m2) (f := fun a => (delA proA old).count a + f a)
            (h2.of fun a => by simp [delA, proA, strA])
          exact ⟨false, old, m3, by rw [e3, Res.bind_ok], h3, (fun h => by cases h), fun _ => rfl, fun hc => absurd e2 hc.alloc⟩
        | some y =>
          obtain ⟨m5, e5, h5⟩ := deleteObj_spec pro_frees (p := old) (m := m2) (f := fun a => [x].count a + [y].count a + f a)
            (h2.of fun a => by simp only [Option.toList_some]; omega)
          have e4' : m2.free ((none : Str).map (·.1)) = .ok m2 := rfl
          simp only [e4', Res.bind_ok, Bool.not_true, Bool.false_eq_true, if_false]
          refine ⟨true, _, m5, by rw [e5, Res.bind_ok], h5.of fun a => by
              simp only [delA, proA, strA, Option.map_some, Option.toList_some, List.count_cons, List.count_nil]; omega,
            fun _ => ⟨by simp, ?_⟩, (fun h => by cases h), fun _ => by simp⟩
          simp only [Option.map_some]
          rw [← hm]

theorem enc_add_spec {can : Nat → Bool} {e : Encodings} {m : Mem} {f : Nat → Nat} (h : Holds m fun a => (encA e).count a + f a) :
    ∃ ok e' m', e.add can m = .ok (ok, e', m') ∧ Holds m' (fun a => (encA e').count a + f a) ∧
      (e'.items.map fun e => e.2.map (·.2)) = (if ok then (e.items.map fun e => e.2.map (·.2)) ++ [none] else e.items.map fun e => e.2.map (·.2)) ∧
      (Enough can → ok = true) := by
  unfold Encodings.add
  rcases e1 : m.alloc can with ⟨q, m1⟩
  have h1 := alloc_spec h e1
  cases q with
  | none => exact ⟨false, e, m1, rfl, h1.of fun a => by simp, rfl, fun hc => absurd e1 hc.alloc⟩
  | some x =>
    simp only
    rcases e2 : m1.alloc can with ⟨q2, m2⟩
    have h2 := alloc_spec h1 e2
    cases q2 with
    | none =>
      obtain ⟨m3, e3, h3⟩ := free_spec (m := m2) (p := some x) (f := fun a => (encA e).count a + f a) (h2.of fun a => by simp)
      exact ⟨false, e, m3, by simp only; rw [e3, Res.bind_ok], h3, rfl, fun hc => absurd e2 hc.alloc⟩
    | some y =>
      obtain ⟨m3, e3, h3⟩ := free_spec (m := m2) (p := e.addr) (f := fun a => [x].count a + [y].count a +
        (e.items.flatMap itemA).count a + f a) (h2.of fun a => by simp only [encA, List.count_append, Option.toList_some]; omega)
      refine ⟨true, _, m3, by simp only; rw [e3, Res.bind_ok], h3.of fun a => ?_, by simp, fun _ => rfl⟩
      simp only [encA, List.flatMap_append, List.flatMap_cons, List.flatMap_nil, List.append_nil, List.count_append, itemA, strA,
        Option.map_none, Option.toList_none, Option.toList_some]
      omega

theorem set_items {es : List (Nat × Str)} {i : Nat} {x y : Nat × Str} (h : es[i]? = some x) (a : Nat) :
    ((es.set i y).flatMap itemA).count a + (itemA x).count a = (es.flatMap itemA).count a + (itemA y).count a := by
  induction es generalizing i with
  | nil => simp at h
  | cons e es ih =>
    cases i with
    | zero =>
      simp only [List.getElem?_cons_zero, Option.some.injEq] at h
      subst h
      simp only [List.set_cons_zero, List.flatMap_cons, List.count_append]
      omega
    | succ i =>
      have := ih (by simpa using h)
      simp only [List.set_cons_succ, List.flatMap_cons, List.count_append]
      omega

theorem enc_key_spec {can : Nat → Bool} {i : Nat} {b : Option Bytes} {e : Encodings} {m : Mem} {f : Nat → Nat}
    (h : Holds m fun a => (encA e).count a + f a) :
    ∃ ok e' m', e.setKey can i b m = .ok (ok, e', m') ∧ Holds m' (fun a => (encA e').count a + f a) ∧
      (ok = true → i < (e.items.map fun e => e.2.map (·.2)).length ∧ usable b = true ∧
        (e'.items.map fun e => e.2.map (·.2)) = (e.items.map fun e => e.2.map (·.2)).set i b) ∧
      (ok = false → (e'.items.map fun e => e.2.map (·.2)) =
        if usable b then (e.items.map fun e => e.2.map (·.2)).set i none else e.items.map fun e => e.2.map (·.2)) ∧
      (Enough can → ok = (decide (i < (e.items.map fun e => e.2.map (·.2)).length) && usable b)) := by
  unfold Encodings.setKey
  cases hi : e.items[i]? with
  | none =>
    have hl := List.getElem?_eq_none_iff.mp hi
    refine ⟨false, e, m, rfl, h, (fun h => by cases h), fun _ => ?_, fun _ => ?_⟩
    · rw [List.set_eq_of_length_le (by simpa using hl)]; simp
    · have : ¬ i < e.items.length := by omega
      simp [this]
  | some x =>
    obtain ⟨y, s⟩ := x
    have hl : i < e.items.length := (List.getElem?_eq_some_iff.mp hi).1
    have hmem : (e.items.map fun e => e.2.map (·.2))[i]? = some (s.map (·.2)) := by rw [List.getElem?_map, hi]; rfl
    have hcount : ∀ a, (encA e).count a = (strA s).count a + (((e.items.set i (y, none)).flatMap itemA).count a + e.addr.toList.count a) := by
      intro a
      have := set_items (y := (y, none)) hi a
      simp only [itemA, strA, Option.map_none, Option.toList_none, List.count_cons, List.count_nil] at this
      simp only [encA, List.count_append, strA]
      omega
    obtain ⟨ok, s', m', e1, h1, k1, k2, k3⟩ := setBytes_spec (can := can) (src := b) (dst := s) (m := m)
      (f := fun a => ((e.items.set i (y, none)).flatMap itemA).count a + e.addr.toList.count a + f a)
      (h.of fun a => by have := hcount a; omega)
    refine ⟨ok, _, m', by simp only; rw [e1, Res.bind_ok], h1.of fun a => ?_, fun hok => ?_, fun hok => ?_, fun hc => ?_⟩
    · have h2 := set_items (y := (y, none)) hi a
      have h3 := set_items (y := (y, s')) hi a
      simp only [itemA, strA, Option.map_none, Option.toList_none, List.count_cons, List.count_nil] at h2 h3
      simp only [encA, List.count_append, strA]
      omega
    · obtain ⟨j1, j2⟩ := k1 hok
      exact ⟨by simpa using hl, j1, by rw [List.map_set, j2]⟩
    · rw [List.map_set, k2 hok]
      split
      · rfl
      · obtain ⟨hl', e2⟩ := List.getElem?_eq_some_iff.mp hmem
        rw [← e2]
        exact List.set_getElem_self hl'
    · rw [k3 hc]; simp [hl]

theorem destroyItems_spec : ∀ {es : List (Nat × Str)} {m : Mem} {f : Nat → Nat}, Holds m (fun a => (es.flatMap itemA).count a + f a) →
    ∃ m', destroyItems es m = .ok m' ∧ Holds m' f := by
  intro es
  induction es with
  | nil => intro m f h; exact ⟨m, rfl, h.of fun a => by simp⟩
  | cons e es ih =>
    intro m f h
    obtain ⟨x, s⟩ := e
    obtain ⟨m1, e1, h1⟩ := free_spec (p := s.map (·.1)) (f := fun a => [x].count a + (es.flatMap itemA).count a + f a) (h.of fun a => by
      simp only [List.flatMap_cons, List.count_append, itemA, strA, List.count_cons, List.count_nil]; omega)
    obtain ⟨m2, e2, h2⟩ := free_spec (p := some x) (f := fun a => (es.flatMap itemA).count a + f a) (h1.of fun a => by
      simp only [Option.toList_some]; omega)
    obtain ⟨m3, e3, h3⟩ := ih h2
    exact ⟨m3, by unfold destroyItems; rw [e1, Res.bind_ok, e2, Res.bind_ok, e3], h3⟩

theorem track_destroy {t : Owned} {m : Mem} (h : Holds m fun a => (ownA t).count a) :
    ∃ m', t.destroy m = .ok m' ∧ Holds m' fun a => (strA t.colourSpace).count a := by
  obtain ⟨m1, e1, h1⟩ := deleteObj_spec col_frees (p := t.colour) (f := fun a => (delA proA t.projection).count a +
    (strA t.codecId).count a + (strA t.codecPrivate).count a + (strA t.language).count a + (strA t.name).count a +
    (t.encodings.items.flatMap itemA).count a + t.encodings.addr.toList.count a + (strA t.colourSpace).count a) (h.of fun a => by
      simp only [ownA, encA, List.count_append]; omega)
  obtain ⟨m2, e2, h2⟩ := deleteObj_spec pro_frees (p := t.projection) (f := fun a =>
    (strA t.codecId).count a + (strA t.codecPrivate).count a + (strA t.language).count a + (strA t.name).count a +
    (t.encodings.items.flatMap itemA).count a + t.encodings.addr.toList.count a + (strA t.colourSpace).count a) (h1.of fun a => by omega)
  obtain ⟨m3, e3, h3⟩ := free_spec (p := t.codecId.map (·.1)) (f := fun a =>
    (strA t.codecPrivate).count a + (strA t.language).count a + (strA t.name).count a +
    (t.encodings.items.flatMap itemA).count a + t.encodings.addr.toList.count a + (strA t.colourSpace).count a) (h2.of fun a => by
      simp only [strA]; omega)
  obtain ⟨m4, e4, h4⟩ := free_spec (p := t.codecPrivate.map (·.1)) (f := fun a =>
    (strA t.language).count a + (strA t.name).count a +
    (t.encodings.items.flatMap itemA).count a + t.encodings.addr.toList.count a + (strA t.colourSpace).count a) (h3.of fun a => by
      simp only [strA]; omega)
  obtain ⟨m5, e5, h5⟩ := free_spec (p := t.language.map (·.1)) (f := fun a => (strA t.name).count a +
    (t.encodings.items.flatMap itemA).count a + t.encodings.addr.toList.count a + (strA t.colourSpace).count a) (h4.of fun a => by
      simp only [strA]; omega)
  obtain ⟨m6, e6, h6⟩ := free_spec (p := t.name.map (·.1)) (f := fun a =>
    (t.encodings.items.flatMap itemA).count a + t.encodings.addr.toList.count a + (strA t.colourSpace).count a) (h5.of fun a => by
      simp only [strA]; omega)
  obtain ⟨m7, e7, h7⟩ := destroyItems_spec (es := t.encodings.items) (f := fun a =>
    t.encodings.addr.toList.count a + (strA t.colourSpace).count a) (h6.of fun a => by omega)
  obtain ⟨m8, e8, h8⟩ := free_spec h7
  refine ⟨m8, ?_, h8⟩
  unfold Owned.destroy
  rw [e1, Res.bind_ok, e2, Res.bind_ok, e3, Res.bind_ok, e4, Res.bind_ok, e5, Res.bind_ok, e6, Res.bind_ok, e7, Res.bind_ok, e8]

/-- What a call does. -/
def StepOk (can : Nat → Bool) (c : TrackCall) (t : Owned) (m : Mem) : Prop :=
  ∃ ok t' m', c.run can t m = .ok (ok, t', m') ∧ Holds m' (fun a => (ownA t').count a) ∧
    Allowed (ownedShown t) c ok (ownedShown t') ∧
    (Enough can → ok = rightAnswer (ownedShown t) c ∧ ownedShown t' = trackAfter (ownedShown t) c)

theorem step_ok {can : Nat → Bool} (c : TrackCall) {t : Owned} {m : Mem} (h : Holds m fun a => (ownA t).count a) : StepOk can c t m := by
  unfold StepOk
  cases c with
  | codecId s =>
    obtain ⟨x, m', e, h1, k1, k2⟩ := setStr_spec (can := can) (src := s) (dst := t.codecId) (m := m) (f := fun a => (ownA { t with codecId := none }).count a)
      (h.of fun a => by simp only [ownA, List.count_append, strA, Option.map_none, Option.toList_none, List.count_nil]; omega)
    refine ⟨true, { t with codecId := x }, m', by unfold TrackCall.run; simp only; rw [e, Res.bind_ok], h1.of fun a => by
      simp only [ownA, List.count_append, strA, Option.map_none, Option.toList_none, List.count_nil]; omega, ?_, fun hc => ⟨rfl, ?_⟩⟩
    · rcases k1 with k | ⟨ks, rfl⟩
      · left; simp only [ownedShown, trackAfter]; rw [k]; split <;> rfl
      · exact .inr ⟨ks, rfl⟩
    · simp only [ownedShown, trackAfter]; rw [k2 hc]; split <;> rfl
  | language s =>
    obtain ⟨x, m', e, h1, k1, k2⟩ := setStr_spec (can := can) (src := s) (dst := t.language) (m := m) (f := fun a => (ownA { t with language := none }).count a)
      (h.of fun a => by simp only [ownA, List.count_append, strA, Option.map_none, Option.toList_none, List.count_nil]; omega)
    refine ⟨true, { t with language := x }, m', by unfold TrackCall.run; simp only; rw [e, Res.bind_ok], h1.of fun a => by
      simp only [ownA, List.count_append, strA, Option.map_none, Option.toList_none, List.count_nil]; omega, ?_, fun hc => ⟨rfl, ?_⟩⟩
    · rcases k1 with k | ⟨ks, rfl⟩
      · left; simp only [ownedShown, trackAfter]; rw [k]; split <;> rfl
      · exact .inr ⟨ks, rfl⟩
    · simp only [ownedShown, trackAfter]; rw [k2 hc]; split <;> rfl
  | name s =>
    obtain ⟨x, m', e, h1, k1, k2⟩ := setStr_spec (can := can) (src := s) (dst := t.name) (m := m) (f := fun a => (ownA { t with name := none }).count a)
      (h.of fun a => by simp only [ownA, List.count_append, strA, Option.map_none, Option.toList_none, List.count_nil]; omega)
    refine ⟨true, { t with name := x }, m', by unfold TrackCall.run; simp only; rw [e, Res.bind_ok], h1.of fun a => by
      simp only [ownA, List.count_append, strA, Option.map_none, Option.toList_none, List.count_nil]; omega, ?_, fun hc => ⟨rfl, ?_⟩⟩
    · rcases k1 with k | ⟨ks, rfl⟩
      · left; simp only [ownedShown, trackAfter]; rw [k]; split <;> rfl
      · exact .inr ⟨ks, rfl⟩
    · simp only [ownedShown, trackAfter]; rw [k2 hc]; split <;> rfl
  | colourSpace s =>
    obtain ⟨x, m', e, h1, k1, k2⟩ := setStr_spec (can := can) (src := s) (dst := t.colourSpace) (m := m) (f := fun a => (ownA { t with colourSpace := none }).count a)
      (h.of fun a => by simp only [ownA, List.count_append, strA, Option.map_none, Option.toList_none, List.count_nil]; omega)
    refine ⟨true, { t with colourSpace := x }, m', by unfold TrackCall.run; simp only; rw [e, Res.bind_ok], h1.of fun a => by
      simp only [ownA, List.count_append, strA, Option.map_none, Option.toList_none, List.count_nil]; omega, ?_, fun hc => ⟨rfl, ?_⟩⟩
    · rcases k1 with k | ⟨ks, rfl⟩
      · left; simp only [ownedShown, trackAfter]; rw [k]; split <;> rfl
      · exact .inr ⟨ks, rfl⟩
    · simp only [ownedShown, trackAfter]; rw [k2 hc]; split <;> rfl
  | codecPrivate b =>
    obtain ⟨ok, x, m', e, h1, k1, k2, k3⟩ := setBytes_spec (can := can) (src := b) (dst := t.codecPrivate) (m := m)
      (f := fun a => (ownA { t with codecPrivate := none }).count a)
      (h.of fun a => by simp only [ownA, List.count_append, strA, Option.map_none, Option.toList_none, List.count_nil]; omega)
    refine ⟨ok, { t with codecPrivate := x }, m', by unfold TrackCall.run; simp only; rw [e, Res.bind_ok], h1.of fun a => by
      simp only [ownA, List.count_append, strA, Option.map_none, Option.toList_none, List.count_nil]; omega, ?_, fun hc => ⟨k3 hc, ?_⟩⟩
    · cases ok with
      | true =>
        obtain ⟨j1, j2⟩ := k1 rfl
        refine ⟨j1, ?_⟩
        simp only [ownedShown, trackAfter]; rw [j2, if_pos j1]
      | false =>
        show _ = if usable b then _ else _
        simp only [ownedShown]; rw [k2 rfl]; split <;> rfl
    · have := k3 hc
      subst this
      cases hb : usable b with
      | true => simp only [ownedShown, trackAfter, hb, if_true]; rw [(k1 hb).2]
      | false =>
        have := k2 hb
        simp only [hb, Bool.false_eq_true, if_false] at this
        simp only [ownedShown, trackAfter, hb, Bool.false_eq_true, if_false]; rw [this]
  | colour c =>
    obtain ⟨ok, x, m', e, h1, k1, k2, k3⟩ := setColour_spec (can := can) (c := c) (old := t.colour) (m := m)
      (f := fun a => (ownA { t with colour := none }).count a)
      (h.of fun a => by simp only [ownA, List.count_append, delA, List.count_nil]; omega)
    refine ⟨ok, { t with colour := x }, m', by unfold TrackCall.run; simp only; rw [e, Res.bind_ok], h1.of fun a => by
      simp only [ownA, List.count_append, delA, List.count_nil]; omega, ?_, fun hc => ⟨(k3 hc).1, ?_⟩⟩
    · cases ok with
      | true =>
        obtain ⟨c', j1, j2⟩ := k1 rfl
        refine ⟨c', j1, ?_⟩
        simp only [ownedShown]; rw [j2]
      | false =>
        have := k2 rfl
        subst this
        rfl
    · simp only [ownedShown, trackAfter]; rw [(k3 hc).2]
  | projection p =>
    obtain ⟨ok, x, m', e, h1, k1, k2, k3⟩ := setProjection_spec (can := can) (c := p) (old := t.projection) (m := m)
      (f := fun a => (ownA { t with projection := none }).count a)
      (h.of fun a => by simp only [ownA, List.count_append, delA, List.count_nil]; omega)
    refine ⟨ok, { t with projection := x }, m', by unfold TrackCall.run; simp only; rw [e, Res.bind_ok], h1.of fun a => by
      simp only [ownA, List.count_append, delA, List.count_nil]; omega, ?_, fun hc => ⟨k3 hc, ?_⟩⟩
    · cases ok with
      | true =>
        obtain ⟨j1, j2⟩ := k1 rfl
        refine ⟨j1, ?_⟩
        simp only [ownedShown, trackAfter]; rw [j2, if_neg j1]
      | false =>
        have := k2 rfl
        subst this
        rfl
    · cases ok with
      | true =>
        obtain ⟨j1, j2⟩ := k1 rfl
        simp only [ownedShown, trackAfter]; rw [j2, if_neg j1]
      | false =>
        have := k2 rfl
        subst this
        have hp : p.privateData = some [] := by simpa using (k3 hc).symm
        simp only [trackAfter, hp, if_true]
  | addEncoding =>
    obtain ⟨ok, x, m', e, h1, k1, k2⟩ := enc_add_spec (can := can) (e := t.encodings) (m := m)
      (f := fun a => (ownA { t with encodings := {} }).count a)
      (h.of fun a => by
        simp only [ownA, List.count_append, encA, Option.toList_none, List.flatMap_nil, List.count_nil]; omega)
    refine ⟨ok, { t with encodings := x }, m', by unfold TrackCall.run; simp only; rw [e, Res.bind_ok], h1.of fun a => by
      simp only [ownA, List.count_append, encA, Option.toList_none, List.flatMap_nil, List.count_nil]; omega, ?_, fun hc => ⟨k2 hc, ?_⟩⟩
    · show _ = if ok then _ else _
      simp only [ownedShown, trackAfter]; rw [k1]; split <;> rfl
    · have := k2 hc
      subst this
      simp only [ownedShown, trackAfter]; rw [k1]; rfl
  | keyId i b =>
    obtain ⟨ok, x, m', e, h1, k1, k2, k3⟩ := enc_key_spec (can := can) (i := i) (b := b) (e := t.encodings) (m := m)
      (f := fun a => (ownA { t with encodings := {} }).count a)
      (h.of fun a => by
        simp only [ownA, List.count_append, encA, Option.toList_none, List.flatMap_nil, List.count_nil]; omega)
    refine ⟨ok, { t with encodings := x }, m', by unfold TrackCall.run; simp only; rw [e, Res.bind_ok], h1.of fun a => by
      simp only [ownA, List.count_append, encA, Option.toList_none, List.flatMap_nil, List.count_nil]; omega, ?_, fun hc => ⟨k3 hc, ?_⟩⟩
    · cases ok with
      | true =>
        obtain ⟨j0, j1, j2⟩ := k1 rfl
        refine ⟨j0, j1, ?_⟩
        simp only [ownedShown, trackAfter]; rw [j2, if_pos j1]
      | false =>
        show _ = if usable b then _ else _
        simp only [ownedShown]; rw [k2 rfl]; split <;> rfl
    · cases ok with
      | true =>
        obtain ⟨j0, j1, j2⟩ := k1 rfl
        simp only [ownedShown, trackAfter]; rw [j2, if_pos j1]
      | false =>
        have hk := k3 hc
        have h2 := k2 rfl
        cases hb : usable b with
        | false =>
          simp only [hb, Bool.false_eq_true, if_false] at h2
          simp only [ownedShown, trackAfter, hb, Bool.false_eq_true, if_false]; rw [h2]
        | true =>
          rw [hb, Bool.and_true] at hk
          have hl : ¬ i < (t.encodings.items.map fun e => e.2.map (·.2)).length := by simpa using hk.symm
          simp only [hb, if_true] at h2
          simp only [ownedShown, trackAfter, hb, if_true]
          rw [h2, List.set_eq_of_length_le (by omega), List.set_eq_of_length_le (by omega)]

theorem run_ok {can : Nat → Bool} : ∀ (cs : List TrackCall) {t : Owned} {m : Mem}, Holds m (fun a => (ownA t).count a) →
    ∃ oks t' m', runTrack can cs t m = .ok (oks, t', m') ∧ oks.length = cs.length ∧ Holds m' (fun a => (ownA t').count a) ∧
      AllowedAll (ownedShown t) (cs.zip oks) (ownedShown t') ∧
      (Enough can → oks = rightAnswers (ownedShown t) cs ∧ ownedShown t' = cs.foldl trackAfter (ownedShown t)) := by
  intro cs
  induction cs with
  | nil => intro t m h; exact ⟨[], t, m, rfl, rfl, h, rfl, fun _ => ⟨rfl, rfl⟩⟩
  | cons c cs ih =>
    intro t m h
    obtain ⟨ok, t1, m1, e1, h1, k1, j1⟩ := step_ok (can := can) c h
    obtain ⟨oks, t2, m2, e2, l2, h2, k2, j2⟩ := ih h1
    refine ⟨ok :: oks, t2, m2, ?_, by simp [l2], h2, ⟨_, k1, k2⟩, fun hc => ?_⟩
    · unfold runTrack
      rw [e1, Res.bind_ok]
      simp only
      rw [e2, Res.bind_ok]
    · obtain ⟨a1, a2⟩ := j1 hc
      obtain ⟨b1, b2⟩ := j2 hc
      refine ⟨?_, by rw [b2, a2]; rfl⟩
      rw [b1, a1, a2]; rfl

end Verif.Mux.Build

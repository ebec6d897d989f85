/-
Lemmas for applications that open any file.
-/
import Verif.Lemmas.ParserSafeSegment
import Verif.Lemmas.ParserCues
import Verif.Spec.AnyFile

namespace Verif.Par
open Verif Verif.Spec

/-! ### Calls -/

theorem ReadSegment.Ok.withCluster {r : Rdr} {g : ReadSegment} (h : g.Ok r) {i : Nat} {c c' : ReadCluster}
    (hc : g.clusters[i]? = some c) (h' : c'.Ok r) (hs : c'.start = c.start) (hp : c.pos ≤ c'.pos)
    (ht : c'.timecode = none → c.timecode = none) : (g.withCluster i c').Ok r := by
  obtain ⟨hi, hci⟩ := List.getElem?_eq_some_iff.mp hc
  have hcok := h.clusters c (by rw [← hci]; exact List.getElem_mem hi)
  have hlen : (g.clusters.set i c').length = g.clusters.length := by simp
  refine ⟨fun x hx => ?_, ?_, ?_, fun hneg => ?_⟩
  · rcases List.mem_or_eq_of_mem_set hx with hx | rfl
    · exact h.clusters x hx
    · exact h'
  · have := h.few
    simp only [ReadSegment.withCluster]
    omega
  · have hcount := h.count
    refine Nat.le_trans (by simp only [ReadSegment.withCluster]; omega) (Nat.le_trans hcount ?_)
    unfold ReadSegment.reach
    by_cases hneg : 0 ≤ g.pos
    · rw [if_pos hneg, if_pos (by simpa only [ReadSegment.withCluster] using hneg)]
      exact Nat.le_refl _
    · rw [if_neg hneg, if_neg (by simpa only [ReadSegment.withCluster] using hneg)]
      obtain ⟨-, d, hd⟩ := h.waiting (by omega)
      simp only [ReadSegment.withCluster]
      rw [List.getLast?_eq_getElem?] at hd
      rw [List.getLast?_eq_getElem?, List.getLast?_eq_getElem?, hlen, List.getElem?_set, hd]
      simp only
      by_cases hl : i = g.clusters.length - 1
      · subst hl
        rw [hc] at hd
        cases hd
        rw [if_pos rfl, if_pos hi]
        simp only
        by_cases h1 : c'.timecode = none
        · rw [if_pos h1, if_pos (ht h1)]
          omega
        · have := h'.loaded h1
          rw [if_neg h1]
          split
          · omega
          · omega
      · rw [if_neg hl]
        exact Nat.le_refl _
  · obtain ⟨h1, d, hd⟩ := h.waiting hneg
    refine ⟨h1, ?_⟩
    cases he : (g.clusters.set i c').getLast? with
    | some x => exact ⟨x, he⟩
    | none =>
      rw [List.getLast?_eq_none_iff] at he
      rw [he] at hlen
      have : g.clusters = [] := List.eq_nil_of_length_eq_zero hlen.symm
      rw [this] at hd
      cases hd

/-- A frame that lies inside the file can be read. -/
theorem Entry.Inside.sound {r : Rdr} {file : Bytes} (ho : Opened r file) {e : Entry} (h : e.Inside r) :
    Sound r file (.ok (Option.some e)) := by
  refine ⟨fun e => (by cases e), fun e' he => ?_⟩
  cases he
  refine ⟨h.some, fun f hf => ?_⟩
  obtain ⟨h1, h2⟩ := h.frames f hf
  refine ⟨h1, by rw [← ho.data]; exact h2, ?_⟩
  unfold BFrame.read Rdr.read
  rw [if_pos (.inr h2), ← ho.data]
  rfl

theorem Sound.err {r : Rdr} {file : Bytes} (c : Int) : Sound r file (.err c) :=
  ⟨fun e => (by cases e), fun _ e => (by cases e)⟩

theorem Sound.nothing {r : Rdr} {file : Bytes} : Sound r file (.ok none) :=
  ⟨fun e => (by cases e), fun _ e => (by cases e)⟩

theorem Sound.map {r : Rdr} {file : Bytes} {α : Type} {x : Res α} (h : Safe x) : Sound r file (x.map fun _ => none) := by
  cases x with
  | ok a => exact Sound.nothing
  | err c => exact Sound.err c
  | ub => exact absurd rfl h

theorem Sound.optional {r : Rdr} {file : Bytes} (ho : Opened r file) {o : Option Entry} (h : ∀ e ∈ o, e.Inside r) :
    Sound r file (.ok o) := by
  cases o with
  | none => exact Sound.nothing
  | some e => exact (h e rfl).sound ho

/-- How a cluster may change. -/
structure ReadCluster.Grows (r : Rdr) (c c' : ReadCluster) : Prop where
  ok : c'.Ok r
  start : c'.start = c.start
  pos : c.pos ≤ c'.pos
  loaded : c'.timecode = none → c.timecode = none

theorem ReadCluster.Ok.grows_load {r : Rdr} {c c' : ReadCluster} (h : c.Ok r) (hl : c.load r = .ok c') : c.Grows r c' := by
  obtain ⟨h1, h2, h3, h4, -, -⟩ := h.load hl
  exact ⟨h1, h3, h4, fun e => absurd e h2⟩

theorem ReadCluster.Ok.grows_kept {r : Rdr} {c : ReadCluster} (h : c.Ok r) : c.Grows r (c.kept r) := by
  unfold ReadCluster.kept
  split
  · exact h.grows_load ‹_›
  · exact ⟨h, rfl, Nat.le_refl _, id⟩

theorem ReadCluster.Ok.grows_parse {r : Rdr} (hw : r.Whole) {c c' : ReadCluster} {b : Bool} (h : c.Ok r)
    (hl : c.parse r = .ok (c', b)) : c.Grows r c' := by
  obtain ⟨h1, h2, h3, h4, h5⟩ := h.parse hw hl
  refine ⟨h1, h3, ?_, fun e => absurd e h2⟩
  cases b with
  | false => exact Nat.le_of_lt (h4 rfl).1
  | true => exact (h5 rfl).1

theorem ReadCluster.Grows.refl {r : Rdr} {c : ReadCluster} (h : c.Ok r) : c.Grows r c := ⟨h, rfl, Nat.le_refl _, id⟩

theorem ReadCluster.Grows.trans {r : Rdr} {c c' c'' : ReadCluster} (h : c.Grows r c') (h' : c'.Grows r c'') : c.Grows r c'' :=
  ⟨h'.ok, h'.start.trans h.start, Nat.le_trans h.pos h'.pos, fun e => h.loaded (h'.loaded e)⟩

/-- What a call on a cluster gives. -/
structure Gives (r : Rdr) (c : ReadCluster) (x : Res (ReadCluster × Option Entry)) : Prop where
  safe : Safe x
  grows : ∀ c' e, x = .ok (c', e) → c.Grows r c' ∧ ∀ y ∈ e, y ∈ c'.entries.getD []

theorem ReadCluster.Ok.getFirst {r : Rdr} (hr : r.Fails) (hw : r.Whole) {c : ReadCluster} (h : c.Ok r) :
    Gives r c (c.getFirst r) := by
  unfold ReadCluster.getFirst
  split
  · rename_i e es he
    refine ⟨Safe.ok _, fun c' e' hx => ?_⟩
    cases hx
    exact ⟨.refl h, fun y hy => by cases hy; rw [he]; exact List.mem_cons_self⟩
  · refine ⟨Safe.bind (c.parse_safe hr hw) fun _ _ => Safe.ok _, fun c' e' hx => ?_⟩
    rw [Res.bind_eq_ok] at hx
    obtain ⟨⟨c1, b⟩, hp, hx⟩ := hx
    cases hx
    exact ⟨h.grows_parse hw hp, fun y hy => List.mem_of_mem_head? hy⟩

theorem ReadCluster.Ok.getNext {r : Rdr} (hr : r.Fails) (hw : r.Whole) {c : ReadCluster} (h : c.Ok r) {idx : Nat}
    (hi : idx < (c.entries.getD []).length) : Gives r c (c.getNext r idx) := by
  unfold ReadCluster.getNext
  rw [Res.assert_pos hi]
  show Gives r c (match (c.entries.getD [])[idx + 1]? with
    | some e => .ok (c, some e)
    | none => do
      let (c, ended) ← c.parse r
      if ended then .ok (c, none)
      else match (c.entries.getD [])[idx + 1]? with
        | some e => .ok (c, some e)
        | none => .ub)
  cases hx : (c.entries.getD [])[idx + 1]? with
  | some e =>
    refine ⟨Safe.ok _, fun c' e' he => ?_⟩
    cases he
    exact ⟨.refl h, fun y hy => by cases hy; exact List.mem_of_getElem? hx⟩
  | none =>
    simp only
    have hlen : (c.entries.getD []).length = idx + 1 := by
      rw [List.getElem?_eq_none_iff] at hx
      omega
    have more : ∀ c', c.parse r = .ok (c', false) → ∃ e, (c'.entries.getD [])[idx + 1]? = some e := by
      intro c' hp
      obtain ⟨-, -, -, h4, -⟩ := h.parse hw hp
      obtain ⟨-, e, he⟩ := h4 rfl
      exact ⟨e, by rw [he, ← hlen, List.getElem?_append_right (Nat.le_refl _)]; simp⟩
    constructor
    · refine Safe.bind (c.parse_safe hr hw) fun x hx => ?_
      obtain ⟨c', b⟩ := x
      cases b with
      | true => exact Safe.ok _
      | false =>
        obtain ⟨e, he⟩ := more c' hx
        simp only [Bool.false_eq_true, if_false, he]
        exact Safe.ok _
    · intro c' e' hres
      rw [Res.bind_eq_ok] at hres
      obtain ⟨⟨c1, b⟩, hp, hres⟩ := hres
      have hg := h.grows_parse hw hp
      cases b with
      | true =>
        cases hres
        exact ⟨hg, fun y hy => by cases hy⟩
      | false =>
        obtain ⟨e, he⟩ := more c1 hp
        simp only [Bool.false_eq_true, if_false, he] at hres
        cases hres
        exact ⟨hg, fun y hy => by cases hy; exact List.mem_of_getElem? he⟩

theorem ReadCluster.Ok.getLast {r : Rdr} (hr : r.Fails) (hw : r.Whole) : ∀ (f : Nat) {c : ReadCluster}, c.Ok r → 
    r.data.length < f + c.pos → 1 ≤ f → Safe (ReadCluster.getLast r f c).2 ∧ c.Grows r (ReadCluster.getLast r f c).1 ∧
      ∀ e, (ReadCluster.getLast r f c).2 = .ok (some e) → e.Inside r := by
  intro f
  induction f with
  | zero => intro c h _ h1; omega
  | succ f ih =>
    intro c h hf _
    unfold ReadCluster.getLast
    split
    · rename_i c' hp
      obtain ⟨k1, k2, k3, k4, -⟩ := h.parse hw hp
      obtain ⟨k5, -⟩ := k4 rfl
      have := (k1.loaded k2).2
      obtain ⟨i1, i2, i3⟩ := ih k1 (by omega) (by omega)
      exact ⟨i1, (h.grows_parse hw hp).trans i2, i3⟩
    · rename_i c' hp
      obtain ⟨k1, -⟩ := h.parse hw hp
      refine ⟨Safe.ok _, h.grows_parse hw hp, fun e he => ?_⟩
      simp only [Res.ok.injEq] at he
      exact k1.entries e (getLast?_mem he)
    · exact ⟨Safe.err _, h.grows_kept, fun e he => by cases he⟩
    · exact absurd ‹_› (c.parse_safe hr hw)

theorem settle_ok {r : Rdr} {file : Bytes} (ho : Opened r file) {g : ReadSegment} (h : g.Ok r) {i : Nat} {c : ReadCluster}
    (hc : g.clusters[i]? = some c) {x : Res (ReadCluster × Option Entry)} (hx : Gives r c x) :
    Sound r file (settle r g i c x).2 ∧ (settle r g i c x).1.Ok r := by
  have hcok := h.clusters c (List.mem_of_getElem? hc)
  unfold settle
  split
  · rename_i c' e
    obtain ⟨k1, k2⟩ := hx.grows _ _ rfl
    exact ⟨Sound.optional ho fun y hy => k1.ok.entries y (k2 y hy), h.withCluster hc k1.ok k1.start k1.pos k1.loaded⟩
  · have k1 := hcok.grows_kept
    exact ⟨Sound.err _, h.withCluster hc k1.ok k1.start k1.pos k1.loaded⟩
  · exact absurd rfl hx.safe

/-! ### Tracks -/

theorem ReadCluster.Ok.entries_le {r : Rdr} {c : ReadCluster} (h : c.Ok r) : (c.entries.getD []).length ≤ r.data.length := by
  by_cases ht : c.timecode = none
  · rw [(h.fresh ht).2.2]
    exact Nat.zero_le _
  · have h1 := (h.loaded ht).2
    have h2 := h.count
    omega

theorem ReadCluster.Ok.getNext_at {r : Rdr} (hw : r.Whole) {c c' : ReadCluster} (h : c.Ok r) {idx : Nat} {e : Entry}
    (hx : c.getNext r idx = .ok (c', some e)) : (c'.entries.getD [])[idx + 1]? = some e := by
  unfold ReadCluster.getNext at hx
  rw [Res.bind_eq_ok] at hx
  obtain ⟨_, -, hx⟩ := hx
  cases hx' : (c.entries.getD [])[idx + 1]? with
  | some e1 =>
    rw [hx'] at hx
    cases hx
    exact hx'
  | none =>
    rw [hx'] at hx
    simp only [Res.bind_eq_ok] at hx
    obtain ⟨⟨c1, b⟩, hp, hx⟩ := hx
    cases b with
    | true => cases hx
    | false =>
      simp only [Bool.false_eq_true, if_false] at hx
      cases he : (c1.entries.getD [])[idx + 1]? with
      | none => rw [he] at hx; cases hx
      | some e1 =>
        rw [he] at hx
        cases hx
        exact he

theorem ReadCluster.getFirst_at {r : Rdr} {c c' : ReadCluster} {e : Entry} (hx : c.getFirst r = .ok (c', some e)) :
    (c'.entries.getD [])[0]? = some e := by
  unfold ReadCluster.getFirst at hx
  split at hx
  · rename_i e' es he
    cases hx
    rw [he]; rfl
  · rw [Res.bind_eq_ok] at hx
    obtain ⟨⟨c1, b⟩, hp, hx⟩ := hx
    simp only [Res.ok.injEq, Prod.mk.injEq] at hx
    obtain ⟨rfl, hx⟩ := hx
    rw [List.head?_eq_getElem?] at hx
    exact hx

theorem ReadCluster.Ok.seekFrom {r : Rdr} (hr : r.Fails) (hw : r.Whole) (p : Entry → Bool) : ∀ (f : Nat) {c : ReadCluster} {idx : Nat}
    {e : Entry}, c.Ok r → (c.entries.getD [])[idx]? = some e → r.data.length < f + idx →
    Safe (c.seekFrom r p f idx e).2 ∧ c.Grows r (c.seekFrom r p f idx e).1 ∧
      ∀ j e', (c.seekFrom r p f idx e).2 = .ok (some (j, e')) → ((c.seekFrom r p f idx e).1.entries.getD [])[j]? = some e' := by
  intro f
  induction f with
  | zero =>
    intro c idx e h he hf
    have := h.entries_le
    have := (List.getElem?_eq_some_iff.mp he).1
    omega
  | succ f ih =>
    intro c idx e h he hf
    have hi := (List.getElem?_eq_some_iff.mp he).1
    have hg := h.getNext hr hw hi
    unfold ReadCluster.seekFrom
    split
    · refine ⟨Safe.ok _, .refl h, fun j e' hx => ?_⟩
      cases hx
      exact he
    · split
      · rename_i c' hx
        exact ⟨Safe.ok _, (hg.grows _ _ hx).1, fun j e' hx => by cases hx⟩
      · rename_i c' e1 hx
        have k1 := (hg.grows _ _ hx).1
        obtain ⟨i1, i2, i3⟩ := ih k1.ok (h.getNext_at hw hx) (by omega)
        exact ⟨i1, k1.trans i2, i3⟩
      · exact ⟨Safe.err _, h.grows_kept, fun j e' hx => by cases hx⟩
      · exact absurd ‹_› hg.safe

/-- What a call on a track gives. -/
structure Tells (r : Rdr) (x : ReadSegment × Res Place) : Prop where
  safe : Safe x.2
  ok : x.1.Ok r
  at' : ∀ k idx e, x.2 = .ok (.entry k idx e) → ∃ c, x.1.clusters[k]? = some c ∧ (c.entries.getD [])[idx]? = some e

theorem Tells.sound {r : Rdr} {file : Bytes} (ho : Opened r file) {x : ReadSegment × Res Place} (h : Tells r x) :
    Sound r file (x.2.map Place.here) := by
  obtain ⟨g, x⟩ := x
  cases x with
  | ub => exact absurd rfl h.safe
  | err c => exact Sound.err c
  | ok p =>
    cases p with
    | eos => exact Sound.nothing
    | entry k idx e =>
      obtain ⟨c, h1, h2⟩ := h.at' k idx e rfl
      exact ((h.ok.clusters c (List.mem_of_getElem? h1)).entries e (List.mem_of_getElem? h2)).sound ho

theorem ReadSegment.Ok.with {r : Rdr} {g : ReadSegment} (h : g.Ok r) {k : Nat} {c c' : ReadCluster} (hc : g.clusters[k]? = some c)
    (hg : c.Grows r c') : (g.with k c').Ok r := h.withCluster hc hg.ok hg.start hg.pos hg.loaded

theorem with_at {g : ReadSegment} {k : Nat} {c c' : ReadCluster} (h : g.clusters[k]? = some c) : (g.with k c').clusters[k]? = some c' := by
  have := (List.getElem?_eq_some_iff.mp h).1
  simp [ReadSegment.with, this]

theorem with_count {g : ReadSegment} {k : Nat} {c' : ReadCluster} : (g.with k c').clusters.length = g.clusters.length := by
  simp [ReadSegment.with]

theorem ReadSegment.Ok.noMore {r : Rdr} {g : ReadSegment} (h : g.Ok r) : Tells r (g.noMore r) := by
  refine ⟨?_, h, fun k idx e he => ?_⟩
  · unfold ReadSegment.noMore
    simp only
    split
    · exact Safe.ok _
    · exact Safe.err _
  · unfold ReadSegment.noMore at he
    simp only at he
    split at he
    · cases he
    · cases he

theorem getNext_lt {g : ReadSegment} {k k' : Nat} (h : g.getNext k = some k') : k' = k + 1 ∧ k + 1 < g.clusters.length := by
  unfold ReadSegment.getNext at h
  split at h
  · cases h
  · cases h
    exact ⟨rfl, by omega⟩

theorem ReadSegment.Ok.firstLoop {r : Rdr} (hr : r.Fails) (hw : r.Whole) {rounds : Nat} (hro : r.data.length < rounds) (t : ReadTrack) :
    ∀ (f : Nat) {g : ReadSegment} {k : Option Nat} {i : Nat}, g.Ok r → (∀ n ∈ k, n < g.clusters.length) →
    k.elim 1 (fun n => g.clusters.length + 1 - n) ≤ f → Tells r (ReadSegment.firstLoop r rounds t f g k i) := by
  intro f
  induction f with
  | zero =>
    intro g k i h hk hf
    cases k with
    | none => simp only [Option.elim] at hf; omega
    | some k => have := hk k rfl; simp only [Option.elim] at hf; omega
  | succ f ih =>
    intro g k i h hk hf
    cases k with
    | none => exact h.noMore
    | some k =>
      have hk' := hk k rfl
      simp only [Option.elim] at hf
      have step : ∀ (g' : ReadSegment) (i : Nat), g'.Ok r → g'.clusters.length = g.clusters.length →
          Tells r (ReadSegment.firstLoop r rounds t f g' (g.getNext k) i) := by
        intro g' i hg' hlen
        refine ih hg' (fun n hn => ?_) ?_
        · obtain ⟨rfl, h2⟩ := getNext_lt hn
          omega
        · cases hn : g.getNext k with
          | none => simp only [Option.elim]; omega
          | some n =>
            obtain ⟨rfl, h2⟩ := getNext_lt hn
            simp only [Option.elim]
            omega
      unfold ReadSegment.firstLoop
      split
      · rename_i hc
        rw [List.getElem?_eq_none_iff] at hc
        omega
      · rename_i c hc
        have hcok := h.clusters c (List.mem_of_getElem? hc)
        have hfirst := hcok.getFirst hr hw
        split
        · exact absurd ‹_› hfirst.safe
        · exact ⟨Safe.err _, h.with hc hcok.grows_kept, fun _ _ _ e => by cases e⟩
        · rename_i c' hx
          exact step _ _ (h.with hc (hfirst.grows _ _ hx).1) with_count
        · rename_i c' e hx
          have hgr := (hfirst.grows _ _ hx).1
          obtain ⟨s1, s2, s3⟩ := hgr.ok.seekFrom hr hw t.vet rounds (ReadCluster.getFirst_at hx) (by omega)
          split
          · rename_i hs
            rw [hs] at s1
            exact absurd rfl s1
          · rename_i hs
            rw [hs] at s2
            exact ⟨Safe.err _, h.with hc (hgr.trans s2), fun _ _ _ e => by cases e⟩
          · rename_i c2 idx e2 hs
            rw [hs] at s2 s3
            refine ⟨Safe.ok _, h.with hc (hgr.trans s2), fun k' i' e' he => ?_⟩
            cases he
            exact ⟨c2, with_at hc, s3 _ _ rfl⟩
          · rename_i c2 hs
            rw [hs] at s2
            have hw' := h.with hc (hgr.trans s2)
            split
            · exact ⟨Safe.ok _, hw', fun _ _ _ e => by cases e⟩
            · exact step _ _ hw' with_count

theorem ReadSegment.Ok.trackFirst {r : Rdr} (hr : r.Fails) (hw : r.Whole) {fuel : Nat} (hf : r.data.length < fuel) {g : ReadSegment}
    (h : g.Ok r) (t : ReadTrack) : Tells r (g.trackFirst r fuel t) := by
  have hfew := h.few
  refine h.firstLoop hr hw hf t _ (fun n hn => ?_) ?_
  · unfold ReadSegment.getFirst at hn
    split at hn
    · cases hn
    · cases hn; omega
  · unfold ReadSegment.getFirst
    split
    · simp only [Option.elim]; omega
    · simp only [Option.elim]; omega

theorem ReadSegment.Ok.nextLoop {r : Rdr} (hr : r.Fails) (hw : r.Whole) {rounds : Nat} (hro : r.data.length < rounds) (t : ReadTrack) :
    ∀ (f : Nat) {g : ReadSegment} {k i : Nat} {c : ReadCluster} {here : Option (Nat × Entry)}, g.Ok r → g.clusters[k]? = some c →
    (∀ x ∈ here, (c.entries.getD [])[x.1]? = some x.2) → g.clusters.length - k ≤ f →
    Tells r (ReadSegment.nextLoop r rounds t f g k here i) := by
  intro f
  induction f with
  | zero =>
    intro g k i c here h hc hh hf
    have := (List.getElem?_eq_some_iff.mp hc).1
    omega
  | succ f ih =>
    intro g k i c here h hc hh hf
    have hk := (List.getElem?_eq_some_iff.mp hc).1
    have hcok := h.clusters c (List.mem_of_getElem? hc)
    have hseek : Safe (c.seekOn r t.has rounds here).2 ∧ c.Grows r (c.seekOn r t.has rounds here).1 ∧
        ∀ j e', (c.seekOn r t.has rounds here).2 = .ok (some (j, e')) →
          ((c.seekOn r t.has rounds here).1.entries.getD [])[j]? = some e' := by
      cases here with
      | none => exact ⟨Safe.ok _, .refl hcok, fun j e' hx => by cases hx⟩
      | some x => exact hcok.seekFrom hr hw t.has rounds (hh x rfl) (by omega)
    obtain ⟨s1, s2, s3⟩ := hseek
    unfold ReadSegment.nextLoop
    rw [hc]
    simp only
    split
    · rename_i hs
      rw [hs] at s1
      exact absurd rfl s1
    · rename_i hs
      rw [hs] at s2
      exact ⟨Safe.err _, h.with hc s2, fun _ _ _ e => by cases e⟩
    · rename_i c2 idx e2 hs
      rw [hs] at s2 s3
      refine ⟨Safe.ok _, h.with hc s2, fun k' i' e' he => ?_⟩
      cases he
      exact ⟨c2, with_at hc, s3 _ _ rfl⟩
    · rename_i c2 hs
      rw [hs] at s2
      have hw' := h.with hc s2
      split
      · exact hw'.noMore
      · rename_i k' hn
        obtain ⟨rfl, hlt⟩ := getNext_lt hn
        have hd := List.getElem?_eq_getElem hlt
        rw [hd]
        simp only
        have hd' : (g.with k c2).clusters[k + 1]? = some g.clusters[k + 1] := by
          simp only [ReadSegment.with]
          rw [List.getElem?_set_ne (by omega)]
          exact hd
        have hdok := h.clusters _ (List.getElem_mem hlt)
        have hfirst := hdok.getFirst hr hw
        split
        · exact absurd ‹_› hfirst.safe
        · exact ⟨Safe.err _, hw'.with hd' hdok.grows_kept, fun _ _ _ e => by cases e⟩
        · rename_i d hx
          refine ih (hw'.with hd' (hfirst.grows _ _ hx).1) (with_at hd') (fun x hx => by cases hx) ?_
          rw [with_count, with_count]
          omega
        · rename_i d e hx
          have hw2 := hw'.with hd' (hfirst.grows _ _ hx).1
          split
          · exact ⟨Safe.ok _, hw2, fun _ _ _ e => by cases e⟩
          · refine ih hw2 (with_at hd') (fun x hx' => ?_) ?_
            · cases hx'
              exact ReadCluster.getFirst_at hx
            · rw [with_count, with_count]
              omega

theorem ReadSegment.Ok.trackNext {r : Rdr} (hr : r.Fails) (hw : r.Whole) {fuel : Nat} (hf : r.data.length < fuel) {g : ReadSegment}
    (h : g.Ok r) {t : ReadTrack} {k idx : Nat} {c : ReadCluster} {e : Entry} (hc : g.clusters[k]? = some c)
    (he : (c.entries.getD [])[idx]? = some e) (ht : t.has e = true) : Tells r (g.trackNext r fuel t k idx e) := by
  have hfew := h.few
  have hcok := h.clusters c (List.mem_of_getElem? hc)
  have hg := hcok.getNext hr hw (List.getElem?_eq_some_iff.mp he).1
  unfold ReadSegment.trackNext
  rw [if_pos ht, hc]
  simp only
  split
  · exact absurd ‹_› hg.safe
  · exact ⟨Safe.err _, h.with hc hcok.grows_kept, fun _ _ _ e => by cases e⟩
  · rename_i c' e' hx
    refine (h.with hc (hg.grows _ _ hx).1).nextLoop hr hw hf t _ (with_at hc) (fun x hx' => ?_) ?_
    · cases e' with
      | none => cases hx'
      | some e' =>
        cases hx'
        exact hcok.getNext_at hw hx
    · rw [with_count]
      omega

/-- Every call leaves a segment as it should be, and its answer is sound. -/
theorem perform_ok {r : Rdr} {file : Bytes} (ho : Opened r file) {fuel : Nat} (hf : file.length < fuel) {g : ReadSegment}
    (h : g.Ok r) (call : ApiCall) : Sound r file (perform r fuel g call).2 ∧ (perform r fuel g call).1.Ok r := by
  have hr : r.Fails := ho.fails
  have hw : r.Whole := by unfold Rdr.Whole; rw [ho.total, ho.data]
  have hf' : r.data.length < fuel := by rw [ho.data]; exact hf
  cases call with
  | headers =>
    obtain ⟨k1, k2⟩ := h.parseHeaders hr
    exact ⟨Sound.map k1, k2⟩
  | loadCluster =>
    have := h.loadCluster hr hw fuel (by omega) (by omega)
    exact ⟨Sound.map this.safe, this.ok⟩
  | load =>
    obtain ⟨k1, k2⟩ := h.load hr hw hf'
    exact ⟨Sound.map k1, k2⟩
  | timeCode i =>
    unfold perform
    simp only
    split
    · exact ⟨Sound.nothing, h⟩
    · rename_i c hc
      have hcok := h.clusters c (List.mem_of_getElem? hc)
      refine settle_ok ho h hc ?_
      unfold ReadCluster.getTimeCode
      cases hl : c.load r with
      | ok c' =>
        refine ⟨Safe.ok _, fun c'' e he => ?_⟩
        cases he
        exact ⟨hcok.grows_load hl, fun y hy => by cases hy⟩
      | err code =>
        refine ⟨Safe.ok _, fun c'' e he => ?_⟩
        cases he
        exact ⟨.refl hcok, fun y hy => by cases hy⟩
      | ub => exact absurd hl (c.load_safe hr)
  | first i =>
    unfold perform
    simp only
    split
    · exact ⟨Sound.nothing, h⟩
    · rename_i c hc
      exact settle_ok ho h hc ((h.clusters c (List.mem_of_getElem? hc)).getFirst hr hw)
  | next i idx =>
    unfold perform
    simp only
    split
    · exact ⟨Sound.nothing, h⟩
    · rename_i c hc
      split
      · exact settle_ok ho h hc ((h.clusters c (List.mem_of_getElem? hc)).getNext hr hw ‹_›)
      · exact ⟨Sound.nothing, h⟩
  | last i =>
    unfold perform
    simp only
    split
    · exact ⟨Sound.nothing, h⟩
    · rename_i c hc
      obtain ⟨k1, k2, k3⟩ := (h.clusters c (List.mem_of_getElem? hc)).getLast hr hw fuel (by omega) (by omega)
      refine ⟨⟨k1, fun e he => ((k3 e he).sound ho).2 e rfl⟩, h.withCluster hc k2.ok k2.start k2.pos k2.loaded⟩
  | trackFirst n =>
    unfold perform
    simp only
    split
    · exact ⟨Sound.nothing, h⟩
    · have := h.trackFirst hr hw hf' ‹_›
      exact ⟨this.sound ho, this.ok⟩
  | trackNext n i idx =>
    unfold perform
    simp only
    split
    · rename_i t e ht he
      split
      · rw [Option.bind_eq_some_iff] at he
        obtain ⟨c, hc, he⟩ := he
        have := h.trackNext hr hw hf' hc he ‹_›
        exact ⟨this.sound ho, this.ok⟩
      · exact ⟨Sound.nothing, h⟩
    · exact ⟨Sound.nothing, h⟩

theorem answers_sound {r : Rdr} {file : Bytes} (ho : Opened r file) {fuel : Nat} (hf : file.length < fuel) :
    ∀ (calls : List ApiCall) {g : ReadSegment}, g.Ok r → ∀ x ∈ answers r fuel g calls, Sound r file x := by
  intro calls
  induction calls with
  | nil => intro g _ x hx; cases hx
  | cons call calls ih =>
    intro g h x hx
    obtain ⟨k1, k2⟩ := perform_ok ho hf h call
    unfold answers at hx
    rcases List.mem_cons.mp hx with rfl | hx
    · exact k1
    · exact ih k2 x hx

/-! ### Showing the whole file -/

theorem watchFrames_safe {r : Rdr} {tc : Int} (ht : 0 ≤ tc) (e : Entry) : ∀ (fs : List BFrame), Safe (watchFrames r tc e fs)
  | [] => Safe.ok _
  | f :: fs => by
    unfold watchFrames
    refine Safe.bind ?_ fun _ _ => Safe.bind ?_ fun _ _ => Safe.bind (watchFrames_safe ht e fs) fun _ _ => Safe.ok _
    · unfold blockGetTimeCode
      rw [if_neg (by omega)]
      exact Safe.ite (fun _ => Safe.ok _) fun _ => Safe.ok _
    · split
      · exact Safe.ok _
      · exact Safe.err _

theorem watchFrom_safe {r : Rdr} (hr : r.Fails) (hw : r.Whole) {tc : Int} (ht : 0 ≤ tc) : ∀ (f : Nat) {c : ReadCluster} {idx : Nat}
    (e : Entry), c.Ok r → c.timecode ≠ none → idx < (c.entries.getD []).length →
    (r.data.length - c.pos) + ((c.entries.getD []).length - (idx + 1)) < f → Safe (watchFrom r tc f c idx e) := by
  intro f
  induction f with
  | zero => intro c idx e _ _ _ h; omega
  | succ f ih =>
    intro c idx e h hl hi hf
    unfold watchFrom
    refine Safe.bind (watchFrames_safe ht e _) fun fs _ => ?_
    refine Safe.bind (h.getNext hr hw hi).safe fun x hx => ?_
    obtain ⟨c', o⟩ := x
    cases o with
    | none => exact Safe.ok _
    | some e' =>
      refine Safe.bind ?_ fun _ _ => Safe.ok _
      unfold ReadCluster.getNext at hx
      rw [Res.assert_pos hi, Res.bind_eq_ok] at hx
      obtain ⟨_, -, hx⟩ := hx
      cases hx' : (c.entries.getD [])[idx + 1]? with
      | some e1 =>
        rw [hx'] at hx
        cases hx
        have := (List.getElem?_eq_some_iff.mp hx').1
        exact ih e' h hl this (by omega)
      | none =>
        rw [hx'] at hx
        simp only [Res.bind_eq_ok] at hx
        obtain ⟨⟨c1, b⟩, hp, hx⟩ := hx
        cases b with
        | true => cases hx
        | false =>
          obtain ⟨k1, k2, k3, k4, -⟩ := h.parse hw hp
          obtain ⟨k5, e2, k6⟩ := k4 rfl
          have hlen : (c1.entries.getD []).length = (c.entries.getD []).length + 1 := by rw [k6]; simp
          have hnone : (c.entries.getD []).length ≤ idx + 1 := by simpa using hx'
          have := (k1.loaded k2).2
          have hcc : c' = c1 := by
            simp only [Bool.false_eq_true, if_false] at hx
            split at hx
            · cases hx; rfl
            · cases hx
          subst hcc
          exact ih e' k1 k2 (by omega) (by omega)

theorem watchCluster_safe {r : Rdr} (hr : r.Fails) (hw : r.Whole) {fuel : Nat} (hf : r.data.length < fuel) {c : ReadCluster}
    (h : c.Ok r) : Safe (watchCluster r fuel c) := by
  unfold watchCluster ReadCluster.getTimeCode
  cases hl : c.load r with
  | ub => exact absurd hl (c.load_safe hr)
  | err e =>
    -- the cluster cannot be loaded: `GetFirst` fails as well
    have hempty : c.entries.getD [] = [] := by
      have : c.timecode = none := by
        cases ht : c.timecode with
        | none => rfl
        | some t =>
          unfold ReadCluster.load at hl
          rw [if_pos (by simp [ht])] at hl
          cases hl
      rw [(h.fresh this).2.2]
      rfl
    have hfirst : c.getFirst r = .err e := by
      unfold ReadCluster.getFirst
      rw [hempty]
      simp only [ReadCluster.parse, hl]
      rfl
    refine Safe.bind (Safe.ok _) fun x hx => ?_
    cases hx
    simp only
    rw [hfirst]
    exact Safe.err _
  | ok c1 =>
    obtain ⟨k1, k2, k3, k4, k5, k6⟩ := h.load hl
    refine Safe.bind (Safe.ok _) fun x hx => ?_
    cases hx
    simp only
    refine Safe.bind (k1.getFirst hr hw).safe fun y hy => ?_
    obtain ⟨c2, o⟩ := y
    obtain ⟨g1, g2⟩ := (k1.getFirst hr hw).grows _ _ hy
    cases o with
    | none => exact Safe.ok _
    | some e =>
      have hmem := g2 e rfl
      have ht2 : c2.timecode ≠ none := fun e => k2 (g1.loaded e)
      have hld := g1.ok.loaded ht2
      have hcnt := g1.ok.count
      have hpos := List.length_pos_of_mem hmem
      refine watchFrom_safe hr hw ?_ fuel e g1.ok ht2 hpos (by omega)
      cases ht : c1.timecode with
      | none => exact absurd ht k2
      | some t => simp

theorem watchClusters_safe {r : Rdr} (hr : r.Fails) (hw : r.Whole) {rounds : Nat} (hro : r.data.length < rounds) {g : ReadSegment}
    (h : g.Ok r) : ∀ (f : Nat) (idx : Option Nat), (∀ i ∈ idx, i < g.clusters.length ∧ g.clusters.length < f + i + 1) →
      Safe (watchClusters r g rounds f idx) := by
  intro f
  induction f with
  | zero =>
    intro idx hidx
    cases idx with
    | none => unfold watchClusters; exact Safe.ok _
    | some i =>
      have := hidx i rfl
      omega
  | succ f ih =>
    intro idx hidx
    cases idx with
    | none => unfold watchClusters; exact Safe.ok _
    | some i =>
      obtain ⟨h1, h2⟩ := hidx i rfl
      unfold watchClusters
      have hc : g.clusters[i]? = some g.clusters[i] := List.getElem?_eq_getElem h1
      rw [hc]
      refine Safe.bind (watchCluster_safe hr hw hro (h.clusters _ (List.mem_of_getElem? hc))) fun _ _ =>
        Safe.bind (ih _ fun j hj => ?_) fun _ _ => Safe.ok _
      unfold ReadSegment.getNext at hj
      split at hj
      · cases hj
      · cases hj
        omega

theorem watch_safe {r : Rdr} (hr : r.Fails) (hw : r.Whole) {fuel : Nat} (hf : r.data.length < fuel) {g : ReadSegment}
    (h : g.Ok r) : Safe (watch r fuel g) := by
  unfold watch
  refine watchClusters_safe hr hw hf h _ _ fun i hi => ?_
  have := h.few
  unfold ReadSegment.getFirst at hi
  split at hi
  · cases hi
  · cases hi
    omega

/-! ### Cues -/

theorem walkIn_safe {σ : Type} {r : Rdr} {stop : Nat} {step : Nat → Hdr → σ → Res (Bool × σ)} {P : σ → Prop} {lo : Nat}
    (hs : ∀ p h s, lo ≤ p → P s → Safe (step p h s) ∧ ∀ b s', step p h s = .ok (b, s') → P s') :
    ∀ (n pos : Nat) (st : σ), lo ≤ pos → stop - pos ≤ n → P st → Safe (walkIn r stop step pos st) ∧
      ∀ b s', walkIn r stop step pos st = .ok (b, s') → P s' := by
  intro n
  induction n with
  | zero =>
    intro pos st _ hn hP
    rw [walkIn_unfold, if_neg (by omega)]
    exact ⟨Safe.ok _, fun b s' e => by cases e; exact hP⟩
  | succ n ih =>
    intro pos st hlo hn hP
    rw [walkIn_unfold]
    split
    · split
      · exact ⟨Safe.ok _, fun b s' e => by cases e; exact hP⟩
      · rename_i h hp
        have := headerIn_pos hp
        obtain ⟨s1, s2⟩ := hs pos h st hlo hP
        split
        · exact ⟨Safe.err _, fun b s' e => (by cases e)⟩
        · exact absurd ‹_› s1
        · rename_i hst
          exact ⟨Safe.ok _, fun b s' e => by cases e; exact s2 _ _ hst⟩
        · rename_i hst
          exact ih _ _ (by omega) (by omega) (s2 _ _ hst)
    · exact ⟨Safe.ok _, fun b s' e => by cases e; exact hP⟩

theorem stored_safe {σ : Type} {x : Res Int} {k : Int → Res (Bool × σ)} (hx : Safe x) (hk : ∀ v, Safe (k v)) :
    Safe (stored x k) := by
  unfold stored
  split
  · exact hk _
  · exact hk _
  · exact absurd rfl hx

theorem trackPositionParse_safe {r : Rdr} (hr : r.Fails) (start size : Nat) : Safe (trackPositionParse r start size) := by
  unfold trackPositionParse
  have := (walkIn_safe (r := r) (stop := start + size) (step := fun _ h t => trackPositionStep r h t) (P := fun _ => True) (lo := 0)
    (fun p h s _ _ => ⟨by
      unfold trackPositionStep
      exact Safe.ite (fun _ => stored_safe (unserializeUInt_safe hr _ _) fun _ => Safe.ok _) fun _ =>
        Safe.ite (fun _ => stored_safe (unserializeUInt_safe hr _ _) fun _ => Safe.ok _) fun _ =>
        Safe.ite (fun _ => stored_safe (unserializeUInt_safe hr _ _) fun _ => Safe.ok _) fun _ => Safe.ok _,
      fun _ _ _ => trivial⟩) _ start {} (Nat.zero_le _) (Nat.le_refl _) trivial).1
  split
  · exact Safe.err _
  · exact absurd ‹_› this
  · exact Safe.ok _
  · exact Safe.ok _

/-- A cue point whose header can be read is loaded without trouble; if that succeeds its time is not negative. -/
theorem cueLoad_safe {r : Rdr} (hr : r.Fails) {c : CuePoint}
    (hh : c.timecode < 0 → ∃ stop h, headerIn r (-c.timecode).toNat stop = .ok h) :
    Safe (cueLoad r c) ∧ ∀ c', cueLoad r c = .ok (true, c') → 0 ≤ c'.timecode := by
  unfold cueLoad
  split
  · exact ⟨Safe.ok _, fun c' e => by cases e; omega⟩
  rename_i hneg
  obtain ⟨stop, h, hd⟩ := hh (by omega)
  unfold headerIn at hd
  simp only
  split at hd
  · rename_i id len hid
    split at hd
    · cases hd
    split at hd
    · rename_i size len2 hsz
      split
      · exact ⟨Safe.ok _, fun c' e => (by cases e)⟩
      have := (walkIn_safe (r := r) (stop := (-c.timecode).toNat + len + len2 + size) (step := fun _ h st => cueCountStep r h st)
        (P := fun _ => True) (lo := 0) (fun p h s _ _ => ⟨by
          unfold cueCountStep
          exact Safe.ite (fun _ => stored_safe (unserializeUInt_safe hr _ _) fun _ => Safe.ok _) fun _ =>
            Safe.ite (fun _ => Safe.ok _) fun _ => Safe.ok _, fun _ _ _ => trivial⟩) _ ((-c.timecode).toNat + len + len2) (c.timecode, 0)
        (Nat.zero_le _) (Nat.le_refl _) trivial).1
      split
      · exact ⟨Safe.err _, fun c' e => (by cases e)⟩
      · exact absurd ‹_› this
      · exact ⟨Safe.ok _, fun c' e => (by cases e)⟩
      · rename_i st _
        unfold cueLoadPositions
        split
        · exact ⟨Safe.ok _, fun c' e => (by cases e)⟩
        rename_i hst
        have := (walkIn_safe (r := r) (stop := (-c.timecode).toNat + len + len2 + size) (step := fun _ h ts => cuePositionStep r h ts)
          (P := fun _ => True) (lo := 0) (fun p h s _ _ => ⟨by
            unfold cuePositionStep
            refine Safe.ite (fun _ => ?_) fun _ => Safe.ok _
            split
            · exact Safe.err _
            · exact absurd ‹_› (trackPositionParse_safe hr _ _)
            · exact Safe.ok _, fun _ _ _ => trivial⟩) _ ((-c.timecode).toNat + len + len2) []
          (Nat.zero_le _) (Nat.le_refl _) trivial).1
        split
        · exact ⟨Safe.err _, fun c' e => (by cases e)⟩
        · exact absurd ‹_› this
        · refine ⟨Safe.ok _, fun c' e => ?_⟩
          cases e
          simp only [not_or] at hst ⊢
          omega
    · cases hd
  · cases hd

/-- What is true of a table of cue points. -/
structure Cues.Ok (q : Cues) : Prop where
  start : 0 < q.start
  ahead : q.start ≤ q.pos
  count : q.count ≤ q.points.length
  loaded : ∀ i c, i < q.count → q.points[i]? = some c → 0 ≤ c.timecode

theorem nextCue_ok {r : Rdr} {stop : Nat} : ∀ (n pos : Nat), stop - pos ≤ n →
    (∀ p, nextCue r stop pos = .error p → pos ≤ p) ∧
    ∀ idpos h, nextCue r stop pos = .ok (some (idpos, h)) → pos ≤ idpos ∧ headerIn r idpos stop = .ok h ∧ idpos < h.pos := by
  intro n
  induction n with
  | zero =>
    intro pos hn
    rw [nextCue.eq_1, if_neg (by omega)]
    exact ⟨fun p e => (by cases e), fun _ _ e => (by cases e)⟩
  | succ n ih =>
    intro pos hn
    rw [nextCue.eq_1]
    split
    · split
      · rename_i p hp
        refine ⟨fun p' e => ?_, fun _ _ e => (by cases e)⟩
        cases e
        unfold headerIn at hp
        repeat' split at hp
        all_goals cases hp
        all_goals omega
      · rename_i h hp
        have := headerIn_pos hp
        split
        · obtain ⟨i1, i2⟩ := ih (h.pos + h.size) (by omega)
          exact ⟨fun p e => by have := i1 p e; omega, fun idpos h' e => by obtain ⟨j1, j2⟩ := i2 idpos h' e; exact ⟨by omega, j2⟩⟩
        · refine ⟨fun p e => (by cases e), fun idpos h' e => ?_⟩
          cases e
          exact ⟨Nat.le_refl _, hp, this⟩
    · exact ⟨fun p e => (by cases e), fun _ _ e => (by cases e)⟩

theorem Cues.Ok.init {r : Rdr} {q : Cues} (h : q.Ok) : Safe (q.init r) ∧ ∀ b q', q.init r = .ok (b, q') →
    q'.Ok ∧ q'.pos = q.pos ∧ q'.start = q.start ∧ q'.size = q.size := by
  unfold Cues.init
  split
  · refine ⟨Safe.ok _, fun b q' e => ?_⟩
    cases e
    exact ⟨h, rfl, rfl, rfl⟩
  rename_i hne
  have hnil : q.points = [] := by simpa using hne
  have hcount : q.count = 0 := by
    have := h.count
    rw [hnil] at this
    simpa using this
  have := (walkIn_safe (r := r) (stop := q.start + q.size) (step := fun idpos h ps =>
        if h.id = Mux.kMkvCuePoint then
          if idpos = 0 then .ub else .ok (true, ps ++ [(⟨-(idpos : Int), []⟩ : CuePoint)])
        else .ok (true, ps)) (P := fun _ => True) (lo := q.start)
    (fun p h' s hlo _ => ⟨by
      have := h.start
      refine Safe.ite (fun _ => ?_) fun _ => Safe.ok _
      rw [if_neg (by omega)]
      exact Safe.ok _, fun _ _ _ => trivial⟩) _ q.start [] (Nat.le_refl _) (Nat.le_refl _) trivial).1
  split
  · exact ⟨Safe.err _, fun b q' e => (by cases e)⟩
  · exact absurd ‹_› this
  · refine ⟨Safe.ok _, fun b q' e => ?_⟩
    cases e
    exact ⟨⟨h.start, h.ahead, by simp only [hcount]; omega, fun i c hi => by simp only [hcount] at hi; omega⟩, rfl, rfl, rfl⟩

theorem Cues.Ok.loadAt {r : Rdr} (hr : r.Fails) {q : Cues} (h : q.Ok) {idpos : Nat} {hd : Hdr} {stop : Nat}
    (hh : headerIn r idpos stop = .ok hd) (hi : q.pos ≤ idpos) :
    Safe (q.loadAt r idpos hd) ∧ ∀ b q', q.loadAt r idpos hd = .ok (b, q') → q'.Ok := by
  have hlt := headerIn_pos hh
  have hah := h.ahead
  unfold Cues.loadAt
  split
  · refine ⟨Safe.ok _, fun b q' e => ?_⟩
    cases e
    exact ⟨h.start, by simp only; omega, h.count, h.loaded⟩
  rename_i c hc
  have hcl := (List.getElem?_eq_some_iff.mp hc).1
  split
  · refine ⟨Safe.ok _, fun b q' e => ?_⟩
    cases e
    exact ⟨h.start, by simp only; omega, h.count, h.loaded⟩
  rename_i hid
  obtain ⟨k1, k2⟩ := cueLoad_safe hr (c := c) (fun hneg => ⟨stop, hd, by
    have : (-c.timecode).toNat = idpos := by omega
    rw [this]
    exact hh⟩)
  split
  · exact ⟨Safe.err _, fun b q' e => (by cases e)⟩
  · exact absurd ‹_› k1
  · refine ⟨Safe.ok _, fun b q' e => ?_⟩
    cases e
    refine ⟨h.start, by simp only; omega, by simpa using h.count, fun i x hi hx => ?_⟩
    simp only at hi hx
    rw [List.getElem?_set_ne (by omega)] at hx
    exact h.loaded i x hi hx
  · rename_i c' hload
    refine ⟨Safe.ok _, fun b q' e => ?_⟩
    cases e
    refine ⟨h.start, by simp only; omega, by simp only [List.length_set]; omega, fun i x hi hx => ?_⟩
    simp only at hi hx
    by_cases he : i = q.count
    · subst he
      rw [List.getElem?_set_self hcl] at hx
      cases hx
      exact k2 _ hload
    · rw [List.getElem?_set_ne (by omega)] at hx
      exact h.loaded i x (by omega) hx

theorem Cues.Ok.loadCuePoint {r : Rdr} (hr : r.Fails) {q : Cues} (h : q.Ok) :
    Safe (q.loadCuePoint r) ∧ ∀ b q', q.loadCuePoint r = .ok (b, q') → q'.Ok := by
  unfold Cues.loadCuePoint
  split
  · refine ⟨Safe.ok _, fun b q' e => ?_⟩
    cases e
    exact h
  obtain ⟨k1, k2⟩ := h.init (r := r)
  split
  · exact ⟨Safe.err _, fun b q' e => (by cases e)⟩
  · exact absurd ‹_› k1
  · rename_i q1 hq
    obtain ⟨o, e1, e2, e3⟩ := k2 _ _ hq
    refine ⟨Safe.ok _, fun b q' e => ?_⟩
    cases e
    exact ⟨o.start, by simp only; omega, o.count, o.loaded⟩
  · rename_i q1 hq
    obtain ⟨o, e1, e2, e3⟩ := k2 _ _ hq
    unfold Cues.loadLoop
    obtain ⟨n1, n2⟩ := nextCue_ok (r := r) (stop := q1.start + q1.size) _ q1.pos (Nat.le_refl _)
    have := o.ahead
    split
    · rename_i p hp
      refine ⟨Safe.ok _, fun b q' e => ?_⟩
      cases e
      have := n1 p hp
      exact ⟨o.start, by simp only; omega, o.count, o.loaded⟩
    · refine ⟨Safe.ok _, fun b q' e => ?_⟩
      cases e
      exact ⟨o.start, by simp only; omega, o.count, o.loaded⟩
    · rename_i idpos hd hn
      obtain ⟨m1, m2, m3⟩ := n2 _ _ hn
      exact o.loadAt hr m2 m1

theorem loadCues_ok {r : Rdr} (hr : r.Fails) : ∀ (n : Nat) {q : Cues}, q.Ok → Safe (loadCues r n q) ∧
    ∀ q', loadCues r n q = .ok q' → q'.Ok := by
  intro n
  induction n with
  | zero => intro q h; exact ⟨Safe.ok _, fun q' e => by cases e; exact h⟩
  | succ n ih =>
    intro q h
    obtain ⟨k1, k2⟩ := h.loadCuePoint hr
    unfold loadCues
    split
    · rename_i b q' hq
      exact ih (k2 _ _ hq)
    · exact ⟨Safe.err _, fun q' e => (by cases e)⟩
    · exact absurd ‹_› k1

theorem getTime_safe {scale : Int} {c : CuePoint} (h0 : 0 ≤ c.timecode) (h1 : scale * c.timecode ≤ llongMax) :
    Safe (c.getTime scale) := by
  unfold CuePoint.getTime
  rw [if_neg (by omega), if_neg (by omega)]
  exact Safe.ok _

theorem findLoop_safe {scale : Int} {ps : List CuePoint} {count : Nat} {time : Int} (hlen : count ≤ ps.length)
    (h : ∀ i c, i < count → ps[i]? = some c → Safe (c.getTime scale)) : ∀ (n i j : Nat), j - i ≤ n → j ≤ count →
      Safe (findLoop scale ps count time i j) := by
  intro n
  induction n with
  | zero =>
    intro i j hn _
    rw [findLoop.eq_1, if_neg (by omega)]
    exact Safe.ok _
  | succ n ih =>
    intro i j hn hj
    rw [findLoop.eq_1]
    split
    · simp only
      split
      · exact Safe.ok _
      · rename_i hlt hk
        have hk' : i + (j - i) / 2 < j := by omega
        have : ps[i + (j - i) / 2]? = some ps[i + (j - i) / 2] := List.getElem?_eq_getElem (by omega)
        rw [this]
        simp only
        split
        · exact Safe.err _
        · exact absurd ‹_› (h _ _ (by omega) this)
        · split
          · exact ih _ _ (by omega) hj
          · exact ih _ _ (by omega) (by omega)
    · exact Safe.ok _

theorem Cues.Ok.find {q : Cues} (h : q.Ok) {scale time track : Int} (hs : ∀ c ∈ q.points, scale * c.timecode ≤ llongMax) :
    Safe (q.find scale time track) := by
  have ht : ∀ i c, i < q.count → q.points[i]? = some c → Safe (c.getTime scale) := fun i c hi hc =>
    getTime_safe (h.loaded i c hi hc) (hs c (List.mem_of_getElem? hc))
  have hcl := h.count
  unfold Cues.find
  split
  · exact Safe.ok _
  rename_i hne
  simp only [not_or] at hne
  split
  · exact Safe.ok _
  · rename_i c hc
    split
    · exact Safe.err _
    · exact absurd ‹_› (ht 0 c (by omega) hc)
    · split
      · exact Safe.ok _
      · split
        · exact Safe.err _
        · exact absurd ‹_› (findLoop_safe h.count ht _ _ _ (Nat.le_refl _) (Nat.le_refl _))
        · exact Safe.ok _
        · rename_i i j hij
          unfold Cues.findPick
          split
          · exact Safe.ok _
          · rename_i hij'
            simp only [not_or] at hij'
            have : q.points[i - 1]? = some q.points[i - 1] := List.getElem?_eq_getElem (by omega)
            rw [this]
            simp only
            split
            · exact Safe.err _
            · exact absurd ‹_› (ht _ _ (by omega) this)
            · exact Safe.ite (fun _ => Safe.ok _) fun _ => Safe.ok _

end Verif.Par

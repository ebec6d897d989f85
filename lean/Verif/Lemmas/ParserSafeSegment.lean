/-
No file leads mkvparser's segment into undefined behaviour or an endless loop.
-/
import Verif.Lemmas.ParserSafeCluster

namespace Verif.Par
open Verif

/-! ### Creating the segment -/

theorem createField_safe (r : Rdr) (pos : Nat) : Safe (createField r pos) := by
  unfold createField
  exact Safe.bind (getUIntLength_safe _ _) fun _ _ => Safe.bind Safe.refuse fun _ _ => Safe.bind Safe.refuse fun _ _ =>
    Safe.refuse

theorem createLoop_safe (r : Rdr) : ∀ (f pos : Nat), Safe (createLoop r f pos)
  | 0, _ => by
    unfold createLoop
    exact Safe.ite (fun _ => Safe.err _) fun _ => Safe.err _
  | f + 1, pos => by
    unfold createLoop
    exact Safe.bind Safe.refuse fun _ _ => Safe.bind (createField_safe _ _) fun _ _ =>
      Safe.bind (Safe.orErr (readID_safe _ _)) fun _ _ => Safe.bind (createField_safe _ _) fun _ _ =>
      Safe.bind (readUInt_safe _ _) fun _ _ => Safe.ite (fun _ => Safe.ok _) fun _ => Safe.bind Safe.refuse fun _ _ =>
      Safe.bind Safe.refuse fun _ _ => Safe.bind Safe.refuse fun _ _ => createLoop_safe r f _

theorem createInstance_safe (r : Rdr) (pos : Nat) : Safe (createInstance r pos) := by
  unfold createInstance
  exact Safe.bind Safe.refuse fun _ _ => createLoop_safe _ _ _

theorem createLoop_state {r : Rdr} : ∀ (f pos : Nat) {g : ReadSegment}, createLoop r f pos = .ok g →
    0 ≤ g.pos ∧ g.clusters = [] := by
  intro f
  induction f with
  | zero =>
    intro pos g h
    unfold createLoop at h
    split at h <;> cases h
  | succ f ih =>
    intro pos g h
    unfold createLoop at h
    simp only [Res.bind_eq_ok] at h
    obtain ⟨_, -, _, -, _, -, _, -, _, -, h⟩ := h
    split at h
    · cases h
      exact ⟨by simp only; omega, rfl⟩
    · simp only [Res.bind_eq_ok] at h
      obtain ⟨_, -, _, -, _, -, h⟩ := h
      exact ih _ h

/-! ### What is true of a segment object -/

/-- How far loading has got: it never goes back. -/
def ReadSegment.reach (g : ReadSegment) : Nat :=
  if 0 ≤ g.pos then g.pos.toNat
  else match g.clusters.getLast? with
    | some c => if c.timecode = none then c.start + 1 else c.pos - 1
    | none => 0

/-- What is true of a segment object of a file that is there completely. -/
structure ReadSegment.Ok (r : Rdr) (g : ReadSegment) : Prop where
  clusters : ∀ c ∈ g.clusters, c.Ok r
  few : g.clusters.length ≤ r.data.length
  count : g.clusters.length ≤ g.reach
  waiting : g.pos < 0 → g.unknown = true ∧ ∃ c, g.clusters.getLast? = some c

theorem reach_pos {g : ReadSegment} {p : Nat} (h : g.pos = p) : g.reach = p := by
  unfold ReadSegment.reach
  rw [if_pos (by omega), h]
  omega

theorem createInstance_state {r : Rdr} {pos : Nat} {g : ReadSegment} (h : createInstance r pos = .ok g) : g.Ok r := by
  unfold createInstance at h
  rw [Res.bind_eq_ok] at h
  obtain ⟨_, -, h⟩ := h
  obtain ⟨h1, h2⟩ := createLoop_state _ _ h
  exact ⟨fun c hc => (by rw [h2] at hc; cases hc), by simp [h2], by simp [h2], fun e => by omega⟩

/-! ### Headers -/

theorem headersField_safe (r : Rdr) (stop : Option Nat) (pos : Nat) : Safe (headersField r stop pos) := by
  unfold headersField
  exact Safe.bind Safe.refuse fun _ _ => Safe.bind (getUIntLength_safe _ _) fun _ _ => Safe.bind Safe.refuse fun _ _ =>
    Safe.bind Safe.refuse fun _ _ => Safe.bind Safe.refuse fun _ _ => Safe.refuse

theorem headersElement_safe {r : Rdr} (hr : r.Fails) (g : ReadSegment) (id pos size : Nat) :
    Safe (headersElement r g id pos size) := by
  unfold headersElement
  exact Safe.ite (fun _ => Safe.bind Safe.refuse fun _ _ => Safe.bind (infoParse_safe hr _ _) fun _ _ => Safe.ok _) fun _ =>
    Safe.ite (fun _ => Safe.bind Safe.refuse fun _ _ => Safe.bind (tracksParse_safe hr _ _) fun _ _ => Safe.ok _) fun _ =>
    Safe.ite (fun _ => Safe.ok _) fun _ =>
    Safe.ite (fun _ => Safe.ite (fun _ => Safe.ok _) fun _ => Safe.bind (seekHeadParse_safe hr _ _) fun _ _ => Safe.ok _) fun _ =>
    Safe.ite (fun _ => Safe.ite (fun _ => Safe.ok _) fun _ => Safe.bind (chaptersParse_safe hr _ _) fun _ _ => Safe.ok _) fun _ =>
    Safe.ite (fun _ => Safe.ite (fun _ => Safe.ok _) fun _ => Safe.bind (tagsParse_safe hr _ _) fun _ _ => Safe.ok _) fun _ =>
    Safe.ok _

theorem headersElement_keeps {r : Rdr} {g g' : ReadSegment} {id pos size : Nat}
    (h : headersElement r g id pos size = .ok g') : g'.clusters = g.clusters ∧ g'.unknown = g.unknown := by
  unfold headersElement at h
  repeat' split at h
  all_goals try simp only [Res.bind_eq_ok] at h
  all_goals first
    | (cases h; exact ⟨rfl, rfl⟩)
    | (obtain ⟨_, -, _, -, h⟩ := h; cases h; exact ⟨rfl, rfl⟩)
    | (obtain ⟨_, -, h⟩ := h; cases h; exact ⟨rfl, rfl⟩)

theorem headersStep_safe {r : Rdr} (hr : r.Fails) (g : ReadSegment) (pos : Nat) : Safe (headersStep r g pos) := by
  unfold headersStep
  exact Safe.ite (fun _ => Safe.ok _) fun _ => Safe.bind (headersField_safe _ _ _) fun _ _ =>
    Safe.bind (Safe.orErr (readID_safe _ _)) fun _ _ => Safe.ite (fun _ => Safe.ok _) fun _ =>
    Safe.bind (headersField_safe _ _ _) fun _ _ => Safe.bind (readUInt_safe _ _) fun _ _ =>
    Safe.bind Safe.refuse fun _ _ => Safe.bind Safe.refuse fun _ _ => Safe.bind (headersElement_safe hr _ _ _ _) fun _ _ =>
    Safe.ok _

theorem headersStep_keeps {r : Rdr} {g g' : ReadSegment} {pos pos' : Nat} (h : headersStep r g pos = .ok (some (g', pos'))) :
    g'.clusters = g.clusters ∧ g'.unknown = g.unknown ∧ pos ≤ pos' := by
  unfold headersStep at h
  split at h
  · cases h
  simp only [Res.bind_eq_ok] at h
  obtain ⟨_, -, ⟨id, len⟩, hid, h⟩ := h
  simp only at h
  split at h
  · cases h
  simp only [Res.bind_eq_ok] at h
  obtain ⟨_, -, ⟨size, len2⟩, hsz, _, -, _, -, g1, he, h⟩ := h
  cases h
  obtain ⟨k1, k2⟩ := headersElement_keeps he
  exact ⟨k1, k2, by simp only; omega⟩

theorem headersLoop_facts {r : Rdr} (hr : r.Fails) : ∀ (f : Nat) (g : ReadSegment) (pos : Nat),
    Safe (headersLoop r f g pos).2 ∧ (headersLoop r f g pos).1.clusters = g.clusters ∧
      (headersLoop r f g pos).1.unknown = g.unknown ∧ ∃ q : Nat, (headersLoop r f g pos).1.pos = q ∧ pos ≤ q := by
  intro f
  induction f with
  | zero => intro g pos; exact ⟨Safe.err _, rfl, rfl, pos, rfl, Nat.le_refl _⟩
  | succ f ih =>
    intro g pos
    unfold headersLoop
    split
    · rename_i g' pos' h
      obtain ⟨k1, k2, k3⟩ := headersStep_keeps h
      obtain ⟨i1, i2, i3, q, i4, i5⟩ := ih g' pos'
      exact ⟨i1, i2.trans k1, i3.trans k2, q, i4, by omega⟩
    · refine ⟨?_, rfl, rfl, pos, rfl, Nat.le_refl _⟩
      exact Safe.ite (fun _ => Safe.err _) fun _ => Safe.ite (fun _ => Safe.err _) fun _ =>
        Safe.ite (fun _ => Safe.err _) fun _ => Safe.ok _
    · exact ⟨Safe.err _, rfl, rfl, pos, rfl, Nat.le_refl _⟩
    · rename_i h
      exact absurd h (headersStep_safe hr _ _)

/-- Parsing the headers. -/
theorem ReadSegment.Ok.parseHeaders {r : Rdr} (hr : r.Fails) {g : ReadSegment} (h : g.Ok r) :
    Safe (g.parseHeaders r).2 ∧ (g.parseHeaders r).1.Ok r := by
  unfold ReadSegment.parseHeaders
  split
  · exact ⟨Safe.err _, h⟩
  split
  · exact ⟨Safe.err _, h⟩
  split
  · exact ⟨Safe.err _, h⟩
  obtain ⟨k1, k2, k3, q, k4, k5⟩ := headersLoop_facts hr (r.data.length + 2 - g.pos.toNat) g g.pos.toNat
  refine ⟨k1, ⟨fun c hc => h.clusters c (by rwa [k2] at hc), by rw [k2]; exact h.few, ?_, fun e => by omega⟩⟩
  have := h.count
  rw [reach_pos (p := g.pos.toNat) (by omega)] at this
  rw [k2, reach_pos k4]
  omega

/-! ### Looking for the next cluster -/

theorem scanStep_safe (r : Rdr) (g : ReadSegment) (pos : Nat) : Safe (scanStep r g pos) := by
  unfold scanStep
  exact Safe.ite (fun _ => Safe.ok _) fun _ => Safe.bind (fieldIn_safe _ _ _) fun _ _ =>
    Safe.bind (Safe.orErr (readID_safe _ _)) fun _ _ => Safe.bind (fieldIn_safe _ _ _) fun _ _ =>
    Safe.bind (readUInt_safe _ _) fun _ _ => Safe.ite (fun _ => Safe.ok _) fun _ => Safe.bind Safe.refuse fun _ _ =>
    Safe.ite (fun _ => Safe.bind Safe.refuse fun _ _ => Safe.ok _) fun _ =>
    Safe.ite (fun _ => Safe.bind Safe.refuse fun _ _ => Safe.ok _) fun _ => Safe.ok _

/-- A cluster found while looking for one. -/
structure Found (r : Rdr) (stop : Option Nat) (idpos p : Nat) (size : Option Nat) : Prop where
  before : ¬ (atEnd r idpos = true ∨ reached stop idpos = true)
  header : ∃ id len sz len2, readID r idpos = .ok (id, len) ∧ readUInt r ((idpos + len : Nat) : Int) = .ok (sz, len2) ∧
    p = idpos + len + len2 ∧ size = if sz = unknownSize len2 then none else some sz

theorem scanStep_facts {r : Rdr} {g : ReadSegment} {pos : Nat} {s : Scan} (h : scanStep r g pos = .ok s) :
    (∀ g' pos', s = .skip g' pos' → pos < pos' ∧ ∃ q, g' = { g with cues := q }) ∧
      ∀ idpos p size, s = .cluster idpos p size → idpos = pos ∧ Found r g.stop idpos p size := by
  unfold scanStep at h
  split at h
  · cases h
    exact ⟨fun _ _ e => (by cases e), fun _ _ _ e => (by cases e)⟩
  rename_i hb
  simp only [Res.bind_eq_ok] at h
  obtain ⟨_, -, ⟨id, len⟩, hid, _, -, ⟨size, len2⟩, hsz, h⟩ := h
  rw [Res.orErr_eq_ok] at hid
  have := readID_len hid
  simp only at h hsz
  have := readUInt_pos hsz
  split at h
  · cases h
    refine ⟨fun g' pos' e => ?_, fun _ _ _ e => (by cases e)⟩
    cases e
    exact ⟨by omega, _, rfl⟩
  rw [Res.bind_eq_ok] at h
  obtain ⟨_, -, h⟩ := h
  split at h
  · rw [Res.bind_eq_ok] at h
    obtain ⟨_, -, h⟩ := h
    cases h
    refine ⟨fun g' pos' e => ?_, fun _ _ _ e => (by cases e)⟩
    cases e
    exact ⟨by omega, _, rfl⟩
  split at h
  · rw [Res.bind_eq_ok] at h
    obtain ⟨_, -, h⟩ := h
    cases h
    refine ⟨fun g' pos' e => ?_, fun _ _ _ e => (by cases e)⟩
    cases e
    exact ⟨by omega, _, rfl⟩
  · cases h
    refine ⟨fun _ _ e => (by cases e), fun idpos p sz e => ?_⟩
    cases e
    exact ⟨rfl, hb, id, len, size, len2, hid, hsz, rfl, rfl⟩

theorem scanLoop_facts {r : Rdr} : ∀ (f : Nat) (g : ReadSegment) (pos : Nat) (g' : ReadSegment)
    (x : Res (Option (Nat × Nat × Option Nat))), scanLoop r f g pos = (g', x) →
    Safe x ∧ g'.clusters = g.clusters ∧ g'.unknown = g.unknown ∧ g'.stop = g.stop ∧ ∃ q : Nat, g'.pos = q ∧ pos ≤ q ∧
      ∀ idpos p size, x = .ok (some (idpos, p, size)) → q = idpos ∧ Found r g.stop idpos p size := by
  intro f
  induction f with
  | zero =>
    intro g pos g' x h
    unfold scanLoop at h
    cases h
    refine ⟨Safe.ite (fun _ => Safe.ok _) fun _ => Safe.err _, rfl, rfl, rfl, pos, rfl, Nat.le_refl _, fun _ _ _ e => ?_⟩
    split at e <;> cases e
  | succ f ih =>
    intro g pos g' x h
    unfold scanLoop at h
    split at h
    · cases h
      exact ⟨Safe.ok _, rfl, rfl, rfl, pos, rfl, Nat.le_refl _, fun _ _ _ e => (by cases e)⟩
    · rename_i g1 pos1 hs
      obtain ⟨k1, q1, rfl⟩ := (scanStep_facts hs).1 _ _ rfl
      obtain ⟨i1, i2, i3, i4, q, i5, i6, i7⟩ := ih _ _ _ _ h
      exact ⟨i1, i2, i3, i4, q, i5, by omega, i7⟩
    · rename_i idpos p size hs
      cases h
      obtain ⟨rfl, k2⟩ := (scanStep_facts hs).2 _ _ _ rfl
      refine ⟨Safe.ok _, rfl, rfl, rfl, _, rfl, Nat.le_refl _, fun _ _ _ e => ?_⟩
      cases e
      exact ⟨rfl, k2⟩
    · cases h
      exact ⟨Safe.err _, rfl, rfl, rfl, pos, rfl, Nat.le_refl _, fun _ _ _ e => (by cases e)⟩
    · rename_i hs
      exact absurd hs (scanStep_safe _ _ _)

/-! ### Loading clusters -/

/-- What a round of loading does to a segment. -/
structure Loads (r : Rdr) (g g' : ReadSegment) (x : Res Nat) : Prop where
  safe : Safe x
  ok : g'.Ok r
  further : g.reach ≤ g'.reach
  more : ∀ n, x = .ok n → n ≠ 1 → g.reach < g'.reach ∧ g'.reach ≤ r.data.length

theorem getLast?_mem {α : Type} {l : List α} {a : α} (h : l.getLast? = some a) : a ∈ l := List.mem_of_getLast? h

theorem ReadSegment.Ok.replaceLast {r : Rdr} {g : ReadSegment} (h : g.Ok r) {c' : ReadCluster} (hc' : c'.Ok r) :
    ∀ x ∈ g.clusters.dropLast ++ [c'], x.Ok r := by
  intro x hx
  rw [List.mem_append, List.mem_singleton] at hx
  rcases hx with hx | rfl
  · exact h.clusters x ((List.dropLast_sublist _).subset hx)
  · exact hc'

theorem ReadSegment.Ok.loadUnknownSize {r : Rdr} (hr : r.Fails) (hw : r.Whole) {g : ReadSegment} (h : g.Ok r)
    (hp : g.pos < 0) : Loads r g (g.loadUnknownSize r).1 (g.loadUnknownSize r).2 := by
  obtain ⟨hu, c, hc⟩ := h.waiting hp
  have hlen : (g.clusters.dropLast ++ [c]).length = g.clusters.length := by
    have : g.clusters ≠ [] := fun e => by rw [e] at hc; cases hc
    have := List.length_pos_iff.mpr this
    simp only [List.length_append, List.length_dropLast, List.length_singleton]
    omega
  have hcok := h.clusters c (getLast?_mem hc)
  have hreach : g.reach = if c.timecode = none then c.start + 1 else c.pos - 1 := by
    unfold ReadSegment.reach
    rw [if_neg (by omega), hc]
  have hcount := h.count
  have hfew := h.few
  -- the same segment with another object in place of the last one
  have next : ∀ (c' : ReadCluster) (u : Bool) (q : Int), q < 0 → u = true → c'.Ok r → g.reach ≤ (if c'.timecode = none then c'.start + 1 else c'.pos - 1) →
      ReadSegment.Ok r { g with clusters := g.clusters.dropLast ++ [c'], unknown := u, pos := q } ∧
      ({ g with clusters := g.clusters.dropLast ++ [c'], unknown := u, pos := q } : ReadSegment).reach = (if c'.timecode = none then c'.start + 1 else c'.pos - 1) := by
    intro c' u q hq hu' hok hle
    have hr' : ({ g with clusters := g.clusters.dropLast ++ [c'], unknown := u, pos := q } : ReadSegment).reach = (if c'.timecode = none then c'.start + 1 else c'.pos - 1) := by
      unfold ReadSegment.reach
      rw [if_neg (by simp only; omega)]
      simp
    refine ⟨⟨h.replaceLast hok, ?_, ?_, fun _ => ⟨hu', c', by simp⟩⟩, hr'⟩
    · simp only [List.length_append, List.length_singleton] at hlen ⊢
      omega
    · rw [hr']
      simp only [List.length_append, List.length_singleton] at hlen ⊢
      omega
  unfold ReadSegment.loadUnknownSize
  rw [hu, hc]
  simp only
  split
  · obtain ⟨k1, k2, k3, k4⟩ := hcok.kept
    have hle : g.reach ≤ (if (c.kept r).timecode = none then (c.kept r).start + 1 else (c.kept r).pos - 1) := by
      rw [hreach]
      split
      · split
        · omega
        · have := k1.loaded ‹_›
          omega
      · have : c.kept r = c := by
          unfold ReadCluster.kept
          split
          · exact (hcok.load ‹_›).2.2.2.2.2 ‹_›
          · rfl
        rw [this, if_neg ‹_›]
        omega
    obtain ⟨o1, o2⟩ := next (c.kept r) true g.pos hp rfl k1 hle
    exact ⟨Safe.err _, o1, (by simp only; rw [o2]; exact hle), fun n e => (by cases e)⟩
  · exact absurd ‹_› (c.parse_safe hr hw)
  · rename_i c' hpar
    obtain ⟨k1, k2, k3, k4, -⟩ := hcok.parse hw hpar
    obtain ⟨k5, -⟩ := k4 rfl
    have hl' := k1.loaded k2
    have hlt : g.reach < (if c'.timecode = none then c'.start + 1 else c'.pos - 1) := by
      rw [hreach, if_neg k2]
      split
      · omega
      · have := hcok.loaded ‹_›
        omega
    obtain ⟨o1, o2⟩ := next c' true g.pos hp rfl k1 (Nat.le_of_lt hlt)
    refine ⟨Safe.ok _, o1, (by simp only; rw [o2]; exact Nat.le_of_lt hlt), fun n _ _ => ⟨by simp only; rw [o2]; exact hlt, ?_⟩⟩
    simp only
    rw [o2, if_neg k2]
    omega
  · rename_i c' hpar
    obtain ⟨k1, k2, k3, -, k4⟩ := hcok.parse hw hpar
    obtain ⟨k5, -, k6⟩ := k4 rfl
    have hl' := k1.loaded k2
    split
    · exact absurd ‹_› k6
    · rename_i n hn
      obtain ⟨s1, s2⟩ := k1.sized n hn
      have hr' : ({ g with clusters := g.clusters.dropLast ++ [c'], pos := (c'.start + n : Nat), unknown := false } : ReadSegment).reach =
          c'.start + n := reach_pos rfl
      have hlt : g.reach < c'.start + n := by
        rw [hreach]
        split
        · omega
        · have := hcok.loaded ‹_›
          omega
      refine ⟨Safe.ok _, ⟨h.replaceLast k1, ?_, ?_, fun e => ?_⟩, by rw [hr']; exact Nat.le_of_lt hlt, fun m _ _ => ⟨by rw [hr']; exact hlt, by rw [hr']; omega⟩⟩
      · simp only [List.length_append, List.length_singleton] at hlen ⊢
        omega
      · rw [hr']
        simp only [List.length_append, List.length_singleton] at hlen ⊢
        omega
      · simp only at e
        omega

theorem ReadSegment.Ok.takeCluster {r : Rdr} (hw : r.Whole) {g : ReadSegment} (h : g.Ok r) {idpos pos : Nat} {size : Option Nat}
    {has : Bool} (hpos : g.pos = idpos) (hf : Found r g.stop idpos pos size) (hin : has = true → EndsInside r idpos) :
    Loads r g (g.takeCluster r idpos pos size has).1 (g.takeCluster r idpos pos size has).2 := by
  have hw' := hw
  unfold Rdr.Whole at hw
  have hreach := reach_pos hpos
  have hcount := h.count
  rw [hreach] at hcount
  obtain ⟨id, len, sz, len2, hid, hsz, rfl, hsize⟩ := hf.header
  have := readID_len hid
  have hszp := readUInt_pos hsz
  have hb := hf.before
  simp only [not_or] at hb
  unfold ReadSegment.takeCluster
  cases has with
  | true =>
    have hin := hin rfl
    have hok : ∀ x ∈ g.clusters ++ [({ start := idpos, pos := idpos } : ReadCluster)], x.Ok r := by
      intro x hx
      rw [List.mem_append, List.mem_singleton] at hx
      rcases hx with hx | rfl
      · exact h.clusters x hx
      · exact ⟨hin, fun _ => ⟨rfl, rfl, rfl⟩, fun e => absurd rfl e, fun t ht => (by cases ht), fun n hn => (by cases hn),
          fun e he => by simp at he, by simp⟩
    simp only [if_true]
    cases size with
    | some n =>
      have hn : sz ≠ unknownSize len2 ∧ sz = n := by
        split at hsize
        · cases hsize
        · exact ⟨‹_›, (Option.some.inj hsize).symm⟩
      have hend := hin id len sz len2 hid hsz hn.1
      obtain ⟨hn1, rfl⟩ := hn
      simp only
      have hr' : ({ g with clusters := g.clusters ++ [({ start := idpos, pos := idpos } : ReadCluster)], pos := (idpos + len + len2 + sz : Nat) } : ReadSegment).reach =
          idpos + len + len2 + sz := reach_pos rfl
      refine ⟨Safe.ite (fun _ => Safe.err _) fun _ => Safe.ok _, ⟨hok, ?_, ?_, fun e => ?_⟩, by rw [hr', hreach]; omega,
        fun _ _ _ => ⟨by rw [hr', hreach]; omega, by rw [hr']; omega⟩⟩
      · simp only [List.length_append, List.length_singleton]
        omega
      · rw [hr']
        simp only [List.length_append, List.length_singleton]
        omega
      · simp only at e
        omega
    | none =>
      have hr' : ({ g with clusters := g.clusters ++ [({ start := idpos, pos := idpos } : ReadCluster)], pos := -((idpos + len + len2 : Nat) : Int), unknown := true } : ReadSegment).reach =
          idpos + 1 := by
        unfold ReadSegment.reach
        rw [if_neg (by simp only; omega)]
        simp
      refine ⟨Safe.ok _, ⟨hok, ?_, ?_, fun _ => ⟨rfl, _, by simp; rfl⟩⟩, by rw [hr', hreach]; omega,
        fun _ _ _ => ⟨by rw [hr', hreach]; omega, by rw [hr']; omega⟩⟩
      · simp only [List.length_append, List.length_singleton]
        omega
      · rw [hr']
        simp only [List.length_append, List.length_singleton]
        omega
  | false =>
    simp only [Bool.false_eq_true, if_false]
    -- the same segment, further on
    have next : ∀ (q : Int), (idpos : Int) < q → ReadSegment.Ok r { g with pos := q } ∧ g.reach < ({ g with pos := q } : ReadSegment).reach ∧
        (({ g with pos := q } : ReadSegment).reach : Int) = q := by
      intro q hq
      have hr' : ({ g with pos := q } : ReadSegment).reach = q.toNat := reach_pos (by simp only; omega)
      refine ⟨⟨h.clusters, h.few, by rw [hr']; simp only; omega, fun e => by simp only at e; omega⟩, by rw [hr', hreach]; omega, by rw [hr']; omega⟩
    have hidp : (idpos : Int) < r.total := by
      have := hb.1
      simp [atEnd] at this
      omega
    split
    · obtain ⟨n1, n2, n3⟩ := next r.total hidp
      exact ⟨Safe.ok _, n1, Nat.le_of_lt n2, fun n e h1 => by cases e; exact absurd rfl h1⟩
    rename_i hne
    split
    · rename_i hre
      obtain ⟨s, hs, hle⟩ := reached_true hre
      have hs' : g.stop = some s := hs
      obtain ⟨n1, n2, n3⟩ := next (g.stop.getD 0 : Nat) (by
        rw [hs']
        simp only [Option.getD_some]
        have := reached_false hb.2 hs
        omega)
      exact ⟨Safe.ok _, n1, Nat.le_of_lt n2, fun n e h1 => by cases e; exact absurd rfl h1⟩
    · obtain ⟨n1, n2, n3⟩ := next ((idpos + len + len2 + size.getD 0 : Nat) : Int) (by omega)
      refine ⟨Safe.ok _, n1, Nat.le_of_lt n2, fun n e h1 => ⟨n2, ?_⟩⟩
      simp [atEnd] at hne
      simp only at n3 ⊢
      omega

/-- One round of loading. -/
theorem ReadSegment.Ok.doLoadCluster {r : Rdr} (hr : r.Fails) (hw : r.Whole) {g : ReadSegment} (h : g.Ok r) :
    Loads r g (g.doLoadCluster r).1 (g.doLoadCluster r).2 := by
  have stay : ∀ c : Int, Loads r g g (.err c) := fun c => ⟨Safe.err _, h, Nat.le_refl _, fun n e => (by cases e)⟩
  unfold ReadSegment.doLoadCluster
  split
  · exact h.loadUnknownSize hr hw ‹_›
  rename_i hp
  split
  · exact stay _
  generalize hx : scanLoop r (r.data.length + 1 - g.pos.toNat) g g.pos.toNat = gx
  obtain ⟨g1, x⟩ := gx
  obtain ⟨k1, k2, k3, k4, q, k5, k6, k7⟩ := scanLoop_facts _ _ _ _ _ hx
  have hreach : g.reach = g.pos.toNat := reach_pos (by omega)
  have hcount := h.count
  have hok1 : g1.Ok r := ⟨fun c hc => h.clusters c (by rwa [k2] at hc), by rw [k2]; exact h.few,
    by rw [k2, reach_pos k5]; omega, fun e => by omega⟩
  have hle : g.reach ≤ g1.reach := by rw [reach_pos k5]; omega
  cases x with
  | err c => exact ⟨Safe.err _, hok1, hle, fun n e => (by cases e)⟩
  | ub => exact absurd rfl k1
  | ok o =>
    cases o with
    | none => exact ⟨Safe.ok _, hok1, hle, fun n e h1 => by cases e; exact absurd rfl h1⟩
    | some y =>
      obtain ⟨idpos, p, size⟩ := y
      obtain ⟨rfl, hf⟩ := k7 _ _ _ rfl
      simp only
      rw [← k4] at hf
      generalize hhb : hasBlockEntries r g1.stop q = hb
      cases hb with
      | err c => exact ⟨Safe.err _, hok1, hle, fun n e => (by cases e)⟩
      | ub => exact absurd hhb (hasBlockEntries_safe hw _ _)
      | ok has =>
        have := hok1.takeCluster hw k5 hf (has := has) (fun e => by
          rw [e] at hhb
          exact hasBlockEntries_inside hw hhb)
        exact ⟨this.safe, this.ok, Nat.le_trans hle this.further, fun n e h1 => ⟨Nat.lt_of_le_of_lt hle (this.more n e h1).1, (this.more n e h1).2⟩⟩

/-- What `LoadCluster` does to a segment. -/
structure LoadsOne (r : Rdr) (g g' : ReadSegment) (x : Res Bool) : Prop where
  safe : Safe x
  ok : g'.Ok r
  further : g.reach ≤ g'.reach
  more : x = .ok true → g.reach < g'.reach ∧ g'.reach ≤ r.data.length

theorem ReadSegment.Ok.loadCluster {r : Rdr} (hr : r.Fails) (hw : r.Whole) : ∀ (f : Nat) {g : ReadSegment}, g.Ok r → 1 ≤ f →
    r.data.length < f + g.reach → LoadsOne r g (ReadSegment.loadCluster r f g).1 (ReadSegment.loadCluster r f g).2 := by
  intro f
  induction f with
  | zero => intro g h h1; omega
  | succ f ih =>
    intro g h _ hf
    have key := h.doLoadCluster hr hw
    unfold ReadSegment.loadCluster
    generalize hx : g.doLoadCluster r = gx at key
    obtain ⟨g1, x⟩ := gx
    simp only at key
    cases x with
    | err c => exact ⟨Safe.err _, key.ok, key.further, fun e => (by cases e)⟩
    | ub => exact absurd rfl key.safe
    | ok n =>
      simp only
      by_cases hn : n ≤ 1
      · rw [if_pos hn]
        refine ⟨Safe.ok _, key.ok, key.further, fun e => ?_⟩
        have : n = 0 := by simpa using e
        exact key.more n rfl (by omega)
      · rw [if_neg hn]
        obtain ⟨m1, m2⟩ := key.more n rfl (by omega)
        have := ih key.ok (by omega) (by omega)
        exact ⟨this.safe, this.ok, by have := this.further; omega, fun e => by have := this.more e; omega⟩

theorem ReadSegment.Ok.loadAll {r : Rdr} (hr : r.Fails) (hw : r.Whole) {rounds : Nat} (hro : r.data.length < rounds) :
    ∀ (f : Nat) {g : ReadSegment}, g.Ok r → 1 ≤ f → r.data.length < f + g.reach →
      Safe (ReadSegment.loadAll r rounds f g).2 ∧ (ReadSegment.loadAll r rounds f g).1.Ok r := by
  intro f
  induction f with
  | zero => intro g h h1; omega
  | succ f ih =>
    intro g h _ hf
    have key := h.loadCluster hr hw rounds (by omega) (by omega)
    unfold ReadSegment.loadAll
    generalize hx : ReadSegment.loadCluster r rounds g = gx at key
    obtain ⟨g1, x⟩ := gx
    simp only at key
    cases x with
    | err c => exact ⟨Safe.err _, key.ok⟩
    | ub => exact absurd rfl key.safe
    | ok b =>
      cases b with
      | false => exact ⟨Safe.ok _, key.ok⟩
      | true =>
        obtain ⟨m1, m2⟩ := key.more rfl
        exact ih key.ok (by omega) (by omega)

/-- `Segment::Load`. -/
theorem ReadSegment.Ok.load {r : Rdr} (hr : r.Fails) (hw : r.Whole) {fuel : Nat} (hf : r.data.length < fuel) {g : ReadSegment}
    (h : g.Ok r) : Safe (g.load r fuel).2 ∧ (g.load r fuel).1.Ok r := by
  unfold ReadSegment.load
  split
  · exact ⟨Safe.err _, h⟩
  have key := h.parseHeaders hr
  generalize hx : g.parseHeaders r = gx at key
  obtain ⟨g1, x⟩ := gx
  simp only at key
  cases x with
  | err c => exact ⟨Safe.err _, key.2⟩
  | ub => exact absurd rfl key.1
  | ok u => exact key.2.loadAll hr hw hf fuel (by omega) (by omega)

end Verif.Par

/-
mkvparser loads the clusters of a complete file and shows their frames.
-/
import Verif.Lemmas.ParserClusterAt
import Verif.Lemmas.FileTree

namespace Verif.Par
open Verif Spec Mux

/-- Clusters one after the other, from `p` to `q`, each with its position. -/
inductive Chain (r : Rdr) (scale : Nat) : Nat → List (Nat × ClusterOf) → Nat → Prop
  | nil {p : Nat} : Chain r scale p [] p
  | cons {p q len w : Nat} {sized : Bool} {cl : ClusterOf} {cs : List (Nat × ClusterOf)} {blocks : Bytes}
      (h : ClusterIn r scale p sized cl len w blocks) (hend : sized = true ∨ EndsAt r (p + len))
      (hf : ∀ f ∈ cl.frames, Fine scale f) (rest : Chain r scale (p + len) cs q) : Chain r scale p ((p, cl) :: cs) q

/-- What follows the clusters: nothing, or the Cues, whose payload, unless it is empty, is at the given place. -/
def TailAt (r : Rdr) (q : Nat) (cues : Option (Nat × Nat)) : Prop :=
  (q = r.data.length ∧ cues = none) ∨ ∃ m payload, ElemAt r q 4 kMkvCues m payload ∧
    q + 4 + m + payload.length = r.data.length ∧
    cues = if payload.length = 0 then none else some (q + 4 + m, payload.length)

/-- A cluster object for the cluster at this position that will show these frames. -/
def Loaded (r : Rdr) (scale : Nat) (c : ReadCluster) (x : Nat × ClusterOf) : Prop :=
  c.start = x.1 ∧ ∃ c' es done rest blocks, c.load r = .ok c' ∧ Partway r scale x.2.tc c' es done rest blocks ∧
    done ++ rest = x.2.frames ∧ x.2.frames ≠ []

/-- The objects will show these frames, one by one. -/
inductive LoadedAll (r : Rdr) (scale : Nat) : List ReadCluster → List (Nat × ClusterOf) → Prop
  | nil : LoadedAll r scale [] []
  | cons {c : ReadCluster} {cs : List ReadCluster} {fs : Nat × ClusterOf} {fss : List (Nat × ClusterOf)}
      (h : Loaded r scale c fs) (hr : LoadedAll r scale cs fss) : LoadedAll r scale (c :: cs) (fs :: fss)

theorem LoadedAll.snoc {r : Rdr} {scale : Nat} {cs : List ReadCluster} {fss : List (Nat × ClusterOf)} {c : ReadCluster}
    {fs : Nat × ClusterOf} (h : LoadedAll r scale cs fss) (hc : Loaded r scale c fs) :
    LoadedAll r scale (cs ++ [c]) (fss ++ [fs]) := by
  induction h with
  | nil => exact .cons hc .nil
  | cons h _ ih => exact .cons h ih

theorem LoadedAll.length {r : Rdr} {scale : Nat} {cs : List ReadCluster} {fss : List (Nat × ClusterOf)}
    (h : LoadedAll r scale cs fss) : cs.length = fss.length := by
  induction h with
  | nil => rfl
  | cons _ _ ih => simp [ih]

theorem LoadedAll.get {r : Rdr} {scale : Nat} {cs : List ReadCluster} {fss : List (Nat × ClusterOf)}
    (h : LoadedAll r scale cs fss) : ∀ {i : Nat} (hi : i < fss.length),
    ∃ c, cs[i]? = some c ∧ Loaded r scale c fss[i] := by
  induction h with
  | nil => intro i hi; simp at hi
  | cons h _ ih =>
    intro i hi
    cases i with
    | zero => exact ⟨_, rfl, h⟩
    | succ i =>
      obtain ⟨c, h1, h2⟩ := ih (i := i) (by simpa using hi)
      exact ⟨c, by simpa using h1, by simpa using h2⟩

/-- The header of the segment is the same. -/
structure SameHead (g g' : ReadSegment) : Prop where
  start : g'.start = g.start
  size : g'.size = g.size
  info : g'.info = g.info
  tracks : g'.tracks = g.tracks
  chapters : g'.chapters = g.chapters
  tags : g'.tags = g.tags
  cues : g'.cues = g.cues

theorem SameHead.refl (g : ReadSegment) : SameHead g g := ⟨rfl, rfl, rfl, rfl, rfl, rfl, rfl⟩

theorem SameHead.trans {a b c : ReadSegment} (h : SameHead a b) (h' : SameHead b c) : SameHead a c :=
  ⟨h'.start.trans h.start, h'.size.trans h.size, h'.info.trans h.info, h'.tracks.trans h.tracks,
    h'.chapters.trans h.chapters, h'.tags.trans h.tags, h'.cues.trans h.cues⟩

theorem SameHead.or {a b : ReadSegment} (h : SameHead a b) (cues : Option (Nat × Nat)) :
    SameHead { a with cues := a.cues.or cues } { b with cues := b.cues.or cues } :=
  ⟨h.start, h.size, h.info, h.tracks, h.chapters, h.tags, by simp only [h.cues]⟩

theorem SameHead.stop {a b : ReadSegment} (h : SameHead a b) : b.stop = a.stop := by
  unfold ReadSegment.stop; rw [h.start, h.size]

section
variable {r : Rdr} {scale : Nat}

/-- Between clusters. -/
structure StateA (r : Rdr) (scale : Nat) (g : ReadSegment) (fss : List (Nat × ClusterOf)) (p : Nat) : Prop where
  pos : g.pos = p
  loaded : LoadedAll r scale g.clusters fss
  stop : ∀ s ∈ g.stop, s = r.data.length

/-- In a cluster of unknown size that ends at `p`; `n` of its frames are still to be parsed. -/
structure StateB (r : Rdr) (scale : Nat) (g : ReadSegment) (fss : List (Nat × ClusterOf)) (p n : Nat) : Prop where
  pos : g.pos < 0
  unknown : g.unknown = true
  stop : ∀ s ∈ g.stop, s = r.data.length
  last : ∃ pre c gss c' tc es done rest blocks, g.clusters = pre ++ [c] ∧ fss = gss ++ [(c.start, ⟨tc, done ++ rest⟩)] ∧
    LoadedAll r scale pre gss ∧ c'.start = c.start ∧ c.load r = .ok c' ∧ Partway r scale tc c' es done rest blocks ∧ done ++ rest ≠ [] ∧
    rest.length = n ∧ c'.pos + blocks.length = p

theorem parse_load {c c' : ReadCluster} (h : c.load r = .ok c') (h' : c'.load r = .ok c') : c.parse r = c'.parse r := by
  unfold ReadCluster.parse
  rw [h, h']

/-- A cluster is found. -/
theorem doLoad_cluster {g : ReadSegment} {fss : List (Nat × ClusterOf)} {p len w : Nat} {sized : Bool} {cl : ClusterOf}
    {blocks : Bytes} (hw : r.Whole) (hA : StateA r scale g fss p) (h : ClusterIn r scale p sized cl len w blocks)
    (hend : sized = true ∨ EndsAt r (p + len)) (hf : ∀ f ∈ cl.frames, Fine scale f) :
    ∃ g', g.doLoadCluster r = (g', .ok 0) ∧ SameHead g g' ∧
      (StateA r scale g' (fss ++ [(p, cl)]) (p + len) ∨
        StateB r scale g' (fss ++ [(p, cl)]) (p + len) cl.frames.length) := by
  have hr := hw.sane
  have hlen := h.total
  have hfit := h.fit
  have hsmall := h.small
  have hw1 := h.w1
  have hh := h.head
  have hst := hA.stop
  have hne0 : ¬ (if sized = true then 2 + w + blocks.length else 2 ^ 56 - 1) = 0 := by
    cases sized
    · rw [if_neg (by decide)]; decide
    · rw [if_pos rfl]; omega
  have hunk : (if (if sized = true then 2 + w + blocks.length else 2 ^ 56 - 1) = unknownSize 8 then none
      else some (if sized = true then 2 + w + blocks.length else 2 ^ 56 - 1)) =
      if sized = true then some (2 + w + blocks.length) else none := by
    unfold unknownSize
    cases sized
    · rfl
    · rw [if_pos rfl, if_pos rfl, if_neg (by omega)]
  have hpast : ¬ ((if sized = true then 2 + w + blocks.length else 2 ^ 56 - 1) ≠ unknownSize 8 ∧
      past g.stop (p + 4 + 8 + if sized = true then 2 + w + blocks.length else 2 ^ 56 - 1) = true) := by
    cases sized
    · rw [if_neg (by decide)]; intro hc; exact hc.1 rfl
    · rw [if_pos rfl, past_neg (fun s hs => by have := hst s hs; omega)]; simp
  have hscan : scanStep r g p = .ok (.cluster p (p + 12) (if sized = true then some (2 + w + blocks.length) else none)) := by
    unfold scanStep
    rw [if_neg ?_]
    · rw [hh.in1 hr (fun s hs => by have := hst s hs; omega)]
      simp only [Res.bind_ok]
      rw [hh.readId]
      simp only [Res.orErr_ok, Res.bind_ok]
      rw [hh.in2 hr (fun s hs => by have := hst s hs; omega)]
      simp only [Res.bind_ok]
      rw [hh.readSize]
      simp only [Res.bind_ok]
      rw [if_neg hne0, Res.refuse_neg hpast, Res.bind_ok, if_neg (by decide), if_neg (by simp), hunk]
    · unfold Rdr.Whole at hw
      rw [reached_neg (fun s hs => by have := hst s hs; omega)]
      unfold atEnd
      simp
      omega
  have hload := h.load hw hf hend
  obtain ⟨c', hl, hstart, hpos, hsz, hP⟩ := hload
  have hnew : Loaded r scale { start := p, pos := p } (p, cl) :=
    ⟨rfl, c', [], [], cl.frames, blocks, hl, hP, rfl, h.ne⟩
  have hpp : g.pos.toNat = p := by rw [hA.pos]; rfl
  have hgp : { g with pos := ((p : Nat) : Int) } = g := by rw [← hA.pos]
  obtain ⟨k, hk⟩ : ∃ k, r.data.length + 1 - p = k + 1 := ⟨r.data.length - p, by omega⟩
  have hdo : g.doLoadCluster r = g.takeCluster r p (p + 12) (if sized = true then some (2 + w + blocks.length) else none) true := by
    unfold ReadSegment.doLoadCluster
    rw [if_neg (by rw [hA.pos]; omega), if_neg (by unfold Rdr.Whole at hw; omega), hpp, hk, scanLoop, hscan]
    simp only [hgp]
    rw [h.hasBlocks hw hf (fun s hs => by have := hst s hs; omega)]
  rw [hdo]
  unfold ReadSegment.takeCluster
  rw [if_pos rfl]
  cases sized
  · refine ⟨_, rfl, ⟨rfl, rfl, rfl, rfl, rfl, rfl, rfl⟩, .inr ⟨?_, rfl, hst, g.clusters, { start := p, pos := p }, fss, c', cl.tc, [], [],
      cl.frames, blocks, rfl, rfl, hA.loaded, hstart, hl, hP, h.ne, rfl, ?_⟩⟩
    · show -((p + 12 : Nat) : Int) < 0
      omega
    · rw [hpos]; omega
  · have hnp : ¬ past g.stop (p + 12 + (2 + w + blocks.length)) = true := by
      rw [past_neg (fun s hs => by have := hst s hs; omega)]; decide
    refine ⟨_, congrArg (Prod.mk _) (if_neg hnp), ⟨rfl, rfl, rfl, rfl, rfl, rfl, rfl⟩, .inl ⟨?_, hA.loaded.snoc hnew, hst⟩⟩
    · show ((p + 12 + (2 + w + blocks.length) : Nat) : Int) = (p + len : Nat)
      omega

/-- One round in a cluster of unknown size. -/
theorem doLoad_unknown {g : ReadSegment} {fss : List (Nat × ClusterOf)} {p n : Nat} (hw : r.Whole)
    (hB : StateB r scale g fss p n) :
    ∃ g', g.doLoadCluster r = (g', .ok 2) ∧ SameHead g g' ∧
      (match n with
        | 0 => StateA r scale g' fss p
        | n + 1 => StateB r scale g' fss p n) := by
  obtain ⟨pre, c, gss, c', tc, es, done, rest, blocks, hcl, hfs, hpre, hsame, hl, hP, hne, hn, hp⟩ := hB.last
  have hparse := parse_load hl hP.load
  have hlast : g.clusters.getLast? = some c := by rw [hcl]; simp
  have hdrop : g.clusters.dropLast = pre := by rw [hcl]; simp
  unfold ReadSegment.doLoadCluster
  rw [if_pos hB.pos]
  unfold ReadSegment.loadUnknownSize
  rw [hB.unknown, hlast]
  simp only
  rw [hparse, hdrop]
  cases rest with
  | nil =>
    obtain ⟨c2, q1, q2, q3, q4, q5⟩ := hP.parse_done hw
    rw [q1]
    simp only
    rw [q5]
    simp only
    have hb : blocks = [] := by have := hP.isBlocks; cases this; rfl
    subst hb
    have hstart := hP.start
    subst hn
    refine ⟨_, rfl, ⟨rfl, rfl, rfl, rfl, rfl, rfl, rfl⟩, ?_, ?_, hB.stop⟩
    · show ((c2.start + (c'.pos - c'.start) : Nat) : Int) = (p : Nat)
      rw [q3]
      rw [List.length_nil] at hp
      omega
    · rw [hfs]
      exact hpre.snoc ⟨q3.trans hsame, c2, es, done, [], [], q2.load, q2, rfl, hne⟩
  | cons f fs =>
    have hb := hP.isBlocks
    obtain ⟨b, bs, hbb, hB', hR⟩ : ∃ b bs, blocks = b ++ bs ∧ IsBlock tc scale f b ∧ Blocks tc scale fs bs := by
      generalize hq : blocks = q at hb
      cases hb with
      | cons hB hR => exact ⟨_, _, rfl, hB, hR⟩
    obtain ⟨c2, e, q1, q2, q3, q4, q5⟩ := hP.parse_more hw hbb hB' hR
    rw [q1]
    simp only
    subst hn
    refine ⟨_, rfl, ⟨rfl, rfl, rfl, rfl, rfl, rfl, rfl⟩, hB.pos, rfl, hB.stop, pre, c2, gss, c2, tc, _, _, fs, bs, rfl, ?_, hpre,
      rfl, q2.load, q2, ?_, rfl, ?_⟩
    · rw [hfs, List.append_assoc, q3, hsame]; rfl
    · rw [List.append_assoc]; exact hne
    · rw [q5]; exact hp

/-- The end of the segment. -/
theorem doLoad_end {g : ReadSegment} {fss : List (Nat × ClusterOf)} {q : Nat} (hw : r.Whole) (hA : StateA r scale g fss q)
    {cues : Option (Nat × Nat)} (ht : TailAt r q cues) : ∃ g', g.doLoadCluster r = (g', .ok 1) ∧
      SameHead { g with cues := g.cues.or cues } g' ∧ g'.clusters = g.clusters ∧ g'.pos = (r.data.length : Nat) := by
  have hr := hw.sane
  have hst := hA.stop
  have hpp : g.pos.toNat = q := by rw [hA.pos]; rfl
  have hfin : ∀ g' : ReadSegment, ∀ f, scanLoop r f g' r.data.length = ({ g' with pos := (r.data.length : Nat) }, .ok none) := by
    intro g' f
    have hat : atEnd r r.data.length ∨ reached g'.stop r.data.length := by
      left
      unfold atEnd Rdr.Whole at *
      simp
      omega
    cases f with
    | zero => rw [scanLoop, if_pos hat]
    | succ f =>
      have : scanStep r g' r.data.length = .ok .finished := by unfold scanStep; rw [if_pos hat]
      rw [scanLoop, this]
  unfold ReadSegment.doLoadCluster
  rw [if_neg (by rw [hA.pos]; omega), if_neg (by unfold Rdr.Whole at hw; omega), hpp]
  rcases ht with ⟨rfl, rfl⟩ | ⟨m, payload, he, hend, rfl⟩
  · rw [hfin]
    exact ⟨_, rfl, ⟨rfl, rfl, rfl, rfl, rfl, rfl, by simp⟩, rfl, rfl⟩
  · have hd := he.head
    have hfits := he.fits
    obtain ⟨k, hk⟩ : ∃ k, r.data.length + 1 - q = k + 1 := ⟨r.data.length - q, by omega⟩
    have hstep : ∃ g2, scanStep r g q = .ok (.skip g2 r.data.length) ∧
        SameHead { g with cues := g.cues.or (if payload.length = 0 then none else some (q + 4 + m, payload.length)) } g2 ∧
        g2.clusters = g.clusters := by
      unfold scanStep
      rw [if_neg ?_]
      · rw [hd.in1 hr (fun s hs => by have := hst s hs; omega)]
        simp only [Res.bind_ok]
        rw [hd.readId]
        simp only [Res.orErr_ok, Res.bind_ok]
        rw [hd.in2 hr (fun s hs => by have := hst s hs; omega)]
        simp only [Res.bind_ok]
        rw [hd.readSize]
        simp only [Res.bind_ok]
        by_cases h0 : payload.length = 0
        · rw [if_pos h0]
          exact ⟨g, by congr 2; omega, ⟨rfl, rfl, rfl, rfl, rfl, rfl, by simp [h0]⟩, rfl⟩
        · rw [if_neg h0, Res.refuse_neg (by rw [past_neg (fun s hs => by have := hst s hs; omega)]; simp), Res.bind_ok,
            if_pos trivial, Res.refuse_neg (by unfold unknownSize; omega), Res.bind_ok, hend]
          exact ⟨_, rfl, ⟨rfl, rfl, rfl, rfl, rfl, rfl, by simp [h0]⟩, rfl⟩
      · have hm := he.m1
        unfold Rdr.Whole at hw
        rw [reached_neg (fun s hs => by have := hst s hs; omega)]
        unfold atEnd
        simp
        omega
    obtain ⟨g2, s1, s2, s3⟩ := hstep
    rw [hk, scanLoop, s1]
    simp only
    rw [hfin]
    exact ⟨_, rfl, ⟨s2.start, s2.size, s2.info, s2.tracks, s2.chapters, s2.tags, s2.cues⟩, s3, rfl⟩

/-- `LoadCluster` from a cluster of unknown size goes on to the next one. -/
theorem loadCluster_unknown (hw : r.Whole) : ∀ (n : Nat) {g : ReadSegment} {fss : List (Nat × ClusterOf)} {p fuel : Nat},
    StateB r scale g fss p n → n + 1 ≤ fuel →
    ∃ g', ReadSegment.loadCluster r fuel g = ReadSegment.loadCluster r (fuel - (n + 1)) g' ∧ SameHead g g' ∧
      StateA r scale g' fss p := by
  intro n
  induction n with
  | zero =>
    intro g fss p fuel hB hf
    obtain ⟨g', h1, h2, h3⟩ := doLoad_unknown hw hB
    obtain ⟨k, rfl⟩ : ∃ k, fuel = k + 1 := ⟨fuel - 1, by omega⟩
    refine ⟨g', ?_, h2, h3⟩
    rw [ReadSegment.loadCluster, h1]
    rfl
  | succ n ih =>
    intro g fss p fuel hB hf
    obtain ⟨g', h1, h2, h3⟩ := doLoad_unknown hw hB
    obtain ⟨k, rfl⟩ : ∃ k, fuel = k + 1 := ⟨fuel - 1, by omega⟩
    obtain ⟨g2, i1, i2, i3⟩ := ih (fuel := k) h3 (by omega)
    refine ⟨g2, ?_, h2.trans i2, i3⟩
    rw [ReadSegment.loadCluster, h1]
    simp only
    rw [if_neg (by decide), i1]
    congr 1
    omega

/-- All clusters are loaded. -/
theorem loadAll_ok (hw : r.Whole) {rounds : Nat} (hrounds : r.data.length < rounds) {p q : Nat} {cs : List (Nat × ClusterOf)}
    (hc : Chain r scale p cs q) {cues : Option (Nat × Nat)} :
    ∀ {fuel : Nat} {g : ReadSegment} {fss : List (Nat × ClusterOf)}, TailAt r q cues →
    (StateA r scale g fss p ∨ ∃ n, StateB r scale g fss p n ∧ n + 1 < rounds) → cs.length + 1 ≤ fuel →
    ∃ g', ReadSegment.loadAll r rounds fuel g = (g', .ok ()) ∧ SameHead { g with cues := g.cues.or cues } g' ∧
      LoadedAll r scale g'.clusters (fss ++ cs) ∧ g'.pos = (r.data.length : Nat) := by
  -- `LoadCluster` goes through the end of a cluster of unknown size
  have enter : ∀ {g : ReadSegment} {fss : List (Nat × ClusterOf)} {p : Nat},
      (StateA r scale g fss p ∨ ∃ n, StateB r scale g fss p n ∧ n + 1 < rounds) →
      ∃ g' k, ReadSegment.loadCluster r rounds g = ReadSegment.loadCluster r (k + 1) g' ∧ SameHead g g' ∧
        StateA r scale g' fss p := by
    intro g fss p h
    rcases h with h | ⟨n, h, hn⟩
    · exact ⟨g, rounds - 1, by congr 1; omega, .refl g, h⟩
    · obtain ⟨g', h1, h2, h3⟩ := loadCluster_unknown hw n h (fuel := rounds) (by omega)
      exact ⟨g', rounds - (n + 1) - 1, by rw [h1]; congr 1; omega, h2, h3⟩
  induction hc with
  | nil =>
    intro fuel g fss ht hS hf
    obtain ⟨g1, k, e1, e2, e3⟩ := enter hS
    obtain ⟨g2, d1, d2, d3, d4⟩ := doLoad_end hw e3 ht
    obtain ⟨f, rfl⟩ : ∃ f, fuel = f + 1 := ⟨fuel - 1, by omega⟩
    refine ⟨g2, ?_, (e2.or cues).trans d2, ?_, d4⟩
    · rw [ReadSegment.loadAll, e1, ReadSegment.loadCluster, d1]
      rfl
    · rw [d3]
      simpa using e3.loaded
  | cons h hend hfine _ ih =>
    rename_i p q len w sized cl cs blocks hrest
    intro fuel g fss ht hS hf
    obtain ⟨g1, k, e1, e2, e3⟩ := enter hS
    obtain ⟨g2, d1, d2, d3⟩ := doLoad_cluster hw e3 h hend hfine
    obtain ⟨f, rfl⟩ : ∃ f, fuel = f + 1 := ⟨fuel - 1, by omega⟩
    have hS2 : StateA r scale g2 (fss ++ [(p, cl)]) (p + len) ∨
        ∃ n, StateB r scale g2 (fss ++ [(p, cl)]) (p + len) n ∧ n + 1 < rounds := by
      rcases d3 with d3 | d3
      · exact .inl d3
      · refine .inr ⟨_, d3, ?_⟩
        have := (blocks_facts h.isBlocks).1
        have := h.total
        have := h.fit
        omega
    obtain ⟨g3, i1, i2, i3, i4⟩ := ih (fuel := f) ht hS2 (by simp at hf; omega)
    refine ⟨g3, ?_, ((e2.trans d2).or cues).trans i2, ?_, i4⟩
    · rw [ReadSegment.loadAll, e1, ReadSegment.loadCluster, d1]
      simp only
      rw [if_pos (by decide)]
      exact i1
    · rw [List.append_assoc] at i3
      exact i3

/-- The application sees the frames of all clusters. -/
theorem watchClusters_ok (hw : r.Whole) {g : ReadSegment} {fss : List (Nat × ClusterOf)} (h : LoadedAll r scale g.clusters fss)
    {rounds : Nat} (hrounds : ∀ fs ∈ fss, fs.2.frames.length ≤ rounds) : ∀ (n : Nat) {i fuel : Nat}, fss.length - i = n → i < fss.length →
    n ≤ fuel → watchClusters r g rounds fuel (some i) = .ok (((fss.drop i).map (·.2.frames)).flatten.map (Frame.asWatched scale)) := by
  intro n
  induction n with
  | zero => intro i fuel hn hi hf; omega
  | succ n ih =>
    intro i fuel hn hi hf
    obtain ⟨f, rfl⟩ : ∃ f, fuel = f + 1 := ⟨fuel - 1, by omega⟩
    obtain ⟨c, hc, -, c', es, done, rest, blocks, hl, hP, hd, hne⟩ := h.get hi
    have hmem : fss[i] ∈ fss := List.getElem_mem hi
    have hwc : watchCluster r rounds c = .ok (fss[i].2.frames.map (Frame.asWatched scale)) := by
      rw [← hd]
      exact watchCluster_ok hw hl hP (by rw [hd]; exact hne) (by rw [hd]; exact hrounds _ hmem)
    rw [watchClusters, hc]
    simp only
    rw [hwc, Res.bind_ok, List.drop_eq_getElem_cons hi, List.map_cons, List.flatten_cons, List.map_append]
    unfold ReadSegment.getNext
    rw [h.length]
    by_cases hlast : fss.length ≤ i + 1
    · rw [if_pos hlast, List.drop_eq_nil_of_le hlast]
      simp [watchClusters]
    · rw [if_neg hlast, ih (by omega) (by omega) (by omega), Res.bind_ok]

theorem watch_ok (hw : r.Whole) {g : ReadSegment} {fss : List (Nat × ClusterOf)} (h : LoadedAll r scale g.clusters fss)
    {fuel : Nat} (hfuel : ∀ fs ∈ fss, fs.2.frames.length ≤ fuel) (hf : fss.length ≤ fuel) :
    watch r fuel g = .ok ((fss.map (·.2.frames)).flatten.map (Frame.asWatched scale)) := by
  unfold watch ReadSegment.getFirst
  rw [h.length]
  by_cases h0 : fss.length = 0
  · rw [if_pos h0, List.length_eq_zero_iff.mp h0]
    cases fuel <;> rfl
  · rw [if_neg h0, watchClusters_ok hw h hfuel fss.length (by omega) (by omega) (by omega)]
    rfl

end

end Verif.Par

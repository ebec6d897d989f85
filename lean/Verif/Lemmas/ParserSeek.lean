/-
mkvparser finds the block a cue names, in a file whose clusters have been loaded.
-/
import Verif.Lemmas.ParserSegmentAt
import Verif.Lemmas.ParserTable
import Verif.Spec.Seeking
import Verif.Props.Cues

namespace Verif.Par
open Verif Spec Mux

theorem ReadCluster.load_entries {r : Rdr} {c c' : ReadCluster} (h : c.load r = .ok c') : c'.entries = c.entries ∧ c'.start = c.start := by
  unfold ReadCluster.load at h
  split at h
  · cases h; exact ⟨rfl, rfl⟩
  · obtain ⟨_, -, h⟩ := Res.bind_eq_ok.mp h
    obtain ⟨_, -, h⟩ := Res.bind_eq_ok.mp h
    obtain ⟨_, -, h⟩ := Res.bind_eq_ok.mp h
    obtain ⟨_, -, h⟩ := Res.bind_eq_ok.mp h
    obtain ⟨_, -, h⟩ := Res.bind_eq_ok.mp h
    obtain ⟨_, -, h⟩ := Res.bind_eq_ok.mp h
    obtain ⟨_, -, h⟩ := Res.bind_eq_ok.mp h
    obtain ⟨_, -, h⟩ := Res.bind_eq_ok.mp h
    obtain ⟨_, -, h⟩ := Res.bind_eq_ok.mp h
    obtain ⟨_, -, h⟩ := Res.bind_eq_ok.mp h
    split at h
    · cases h
    · obtain ⟨_, -, h⟩ := Res.bind_eq_ok.mp h
      cases h
      exact ⟨rfl, rfl⟩

section
variable {r : Rdr} {scale : Nat}

/-- An entry is reached. -/
theorem entryAt_ok (hw : r.Whole) {tc : Nat} : ∀ (fuel : Nat) {c : ReadCluster} {es : List Entry} {done rest : List Frame}
    {blocks : Bytes} {idx : Nat}, Partway r scale tc c es done rest blocks → idx < (done ++ rest).length →
    rest.length < fuel →
    ∃ c2 es2 done2 rest2 blocks2 e, ReadCluster.entryAt r fuel c idx = .ok (c2, some e) ∧
      Partway r scale tc c2 es2 done2 rest2 blocks2 ∧ es2[idx]? = some e ∧ done2 ++ rest2 = done ++ rest ∧ c2.start = c.start := by
  intro fuel
  induction fuel with
  | zero => intro c es done rest blocks idx _ _ hf; omega
  | succ n ih =>
    intro c es done rest blocks idx hP hidx hf
    have hlen : es.length = done.length := by simpa using congrArg List.length hP.shown
    rw [ReadCluster.entryAt, hP.entries]
    by_cases h : idx < es.length
    · rw [List.getElem?_eq_getElem h]
      exact ⟨c, es, done, rest, blocks, es[idx], rfl, hP, List.getElem?_eq_getElem h, rfl, rfl⟩
    · rw [List.getElem?_eq_none (by omega)]
      cases rest with
      | nil => simp at hidx; omega
      | cons f fs =>
        have hb := hP.isBlocks
        obtain ⟨b, bs, hbb, hB', hR⟩ : ∃ b bs, blocks = b ++ bs ∧ IsBlock tc scale f b ∧ Blocks tc scale fs bs := by
          generalize hq : blocks = q at hb
          cases hb with
          | cons hB hR => exact ⟨_, _, rfl, hB, hR⟩
        obtain ⟨c2, e, q1, q2, q3, q4, q5⟩ := hP.parse_more hw hbb hB' hR
        rw [q1]
        simp only
        obtain ⟨c3, es3, d3, r3, b3, e3, i1, i2, i3, i4, i5⟩ := ih q2 (idx := idx) (by simpa using hidx) (by simp at hf; omega)
        exact ⟨c3, es3, d3, r3, b3, e3, i1, i2, i3, by rw [i4]; simp, i5.trans q3⟩

/-- The same for a cluster that may still have to be loaded. -/
theorem entryAt_loaded (hw : r.Whole) {tc fuel : Nat} {c c' : ReadCluster} {es : List Entry} {done rest : List Frame}
    {blocks : Bytes} {idx : Nat} (hl : c.load r = .ok c') (hP : Partway r scale tc c' es done rest blocks)
    (hidx : idx < (done ++ rest).length) (hf : rest.length < fuel) :
    ∃ c2 es2 done2 rest2 blocks2 e, ReadCluster.entryAt r fuel c idx = .ok (c2, some e) ∧ (∃ c3, c2.load r = .ok c3 ∧
      Partway r scale tc c3 es2 done2 rest2 blocks2) ∧ es2[idx]? = some e ∧ done2 ++ rest2 = done ++ rest ∧ c2.start = c.start := by
  obtain ⟨le, ls⟩ := ReadCluster.load_entries hl
  obtain ⟨n, rfl⟩ : ∃ n, fuel = n + 1 := ⟨fuel - 1, by omega⟩
  have hent := hP.entries
  rw [le] at hent
  by_cases h : idx < es.length
  · rw [ReadCluster.entryAt, hent, List.getElem?_eq_getElem h]
    exact ⟨c, es, done, rest, blocks, es[idx], rfl, ⟨c', hl, hP⟩, List.getElem?_eq_getElem h, rfl, rfl⟩
  · obtain ⟨c2, es2, d2, r2, b2, e, h1, h2, h3, h4, h5⟩ := entryAt_ok hw (n + 1) hP hidx hf
    have : ReadCluster.entryAt r (n + 1) c idx = ReadCluster.entryAt r (n + 1) c' idx := by
      rw [ReadCluster.entryAt, ReadCluster.entryAt, hent, hP.entries, List.getElem?_eq_none (by omega), parse_load hl hP.load]
      cases hx : c'.parse r with
      | ok x => obtain ⟨_, _ | _⟩ := x <;> rfl
      | ub => rfl
      | err e =>
        simp only
        unfold ReadCluster.kept
        rw [hl, hP.load]
    exact ⟨c2, es2, d2, r2, b2, e, this.trans h1, ⟨c2, h2.load, h2⟩, h3, h4, h5.trans ls⟩

theorem watchEntry_one {tc : Int} {e : Entry} {f : SeenFrame} (h : watchEntry r tc e = .ok [f]) :
    blockGetTimeCode tc e.block.timecode = .ok f.time ∧ e.block.track = f.track := by
  unfold watchEntry at h
  cases hf : e.block.frames with
  | nil => rw [hf] at h; cases h
  | cons b bs =>
    rw [hf] at h
    unfold watchFrames at h
    obtain ⟨t, h1, h⟩ := Res.bind_eq_ok.mp h
    obtain ⟨d, h2, h⟩ := Res.bind_eq_ok.mp h
    obtain ⟨l, h3, h⟩ := Res.bind_eq_ok.mp h
    cases h
    exact ⟨h1, rfl⟩

/-- What is known of an entry that was reached. -/
theorem entry_facts {tc idx : Nat} {c : ReadCluster} {es : List Entry} {done rest : List Frame} {blocks : Bytes} {e : Entry} {f : Frame}
    (hP : Partway r scale tc c es done rest blocks) (he : es[idx]? = some e) (hf : (done ++ rest)[idx]? = some f) :
    blockGetTimeCode tc e.block.timecode = .ok ((f.timestamp / scale : Nat) : Int) ∧ e.block.track = f.trackNumber := by
  have hlen : es.length = done.length := by simpa using congrArg List.length hP.shown
  have hlt := (List.getElem?_eq_some_iff.mp he).1
  rw [List.getElem?_append_left (by omega)] at hf
  have h := congrArg (fun l => l[idx]?) hP.shown
  simp only [List.getElem?_map, he, hf, Option.map_some, Option.some.injEq] at h
  exact watchEntry_one h

/-- `GetEntry` finds the block with the number in the cue. -/
theorem getEntryFor_ok (hw : r.Whole) {fuel p i : Nat} {tracks : Option (List ReadTrack)} {c : ReadCluster} {x : ClusterOf} {f : Frame}
    (h : Loaded r scale c (p, x)) (hf : x.frames[i]? = some f) (hfuel : x.frames.length < fuel) {cp : CuePoint} {tp : TrackPosition}
    (hb : tp.block = (i : Int) + 1) (ht : tp.track = f.trackNumber) (hc : cp.timecode = ((f.timestamp / scale : Nat) : Int)) :
    ∃ c2 es done rest blocks e, c.getEntryFor r fuel tracks cp tp = .ok (c2, some (i, e)) ∧ c2.start = p ∧
      c2.load r = .ok c2 ∧ Partway r scale x.tc c2 es done rest blocks ∧ es[i]? = some e ∧ done ++ rest = x.frames := by
  obtain ⟨hstart, c', es, done, rest, blocks, hl, hP, hd, -⟩ := h
  simp only at hstart hd
  have hi := (List.getElem?_eq_some_iff.mp hf).1
  obtain ⟨c2, es2, d2, r2, b2, e, h1, ⟨c3, h2, h3⟩, h4, h5, h6⟩ := entryAt_loaded hw (idx := i) (fuel := fuel) hl hP (by rw [hd]; exact hi)
    (by rw [← hd, List.length_append] at hfuel; omega)
  obtain ⟨le, ls⟩ := ReadCluster.load_entries h2
  obtain ⟨f1, f2⟩ := entry_facts h3 h4 (by rw [h5, hd]; exact hf)
  refine ⟨c3, es2, d2, r2, b2, e, ?_, by omega, h3.load, h3, h4, by rw [h5, hd]⟩
  have hidx : (tp.block - 1).toNat = i := by omega
  unfold ReadCluster.getEntryFor
  rw [if_pos (by omega), hidx, h1, Res.bind_ok]
  simp only
  rw [if_pos (by rw [f2, ht])]
  unfold ReadCluster.blockTime ReadCluster.getTimeCode
  rw [h2]
  simp only [Res.bind_ok]
  rw [h3.timecode]
  simp only [Option.elim]
  rw [f1]
  simp only [Res.bind_ok]
  rw [if_pos hc.symm]

/-- Replacing a cluster object by one that shows the same. -/
theorem LoadedAll.set {cs : List ReadCluster} {xs : List (Nat × ClusterOf)} (h : LoadedAll r scale cs xs) :
    ∀ {k : Nat} {x : Nat × ClusterOf} {c : ReadCluster}, xs[k]? = some x → Loaded r scale c x → LoadedAll r scale (cs.set k c) xs := by
  induction h with
  | nil => intro k x c hx; cases hx
  | cons h hr ih =>
    intro k x c hx hc
    cases k with
    | zero => cases hx; exact .cons hc hr
    | succ k => exact .cons h (ih hx hc)

theorem LoadedAll.starts {cs : List ReadCluster} {xs : List (Nat × ClusterOf)} (h : LoadedAll r scale cs xs) :
    cs.map (·.start) = xs.map (·.1) := by
  induction h with
  | nil => rfl
  | cons h _ ih => rw [List.map_cons, List.map_cons, ih, h.1]

theorem LoadedAll.watched (hw : r.Whole) {cs : List ReadCluster} {xs : List (Nat × ClusterOf)} (h : LoadedAll r scale cs xs)
    {fuel : Nat} : (∀ x ∈ xs, x.2.frames.length ≤ fuel) →
    cs.map (watchCluster r fuel) = xs.map fun x => .ok (x.2.frames.map (Frame.asWatched scale)) := by
  induction h with
  | nil => intro _; rfl
  | cons h _ ih =>
    intro hf
    obtain ⟨-, c', es, done, rest, blocks, hl, hP, hd, hne⟩ := h
    rw [List.map_cons, List.map_cons, ih fun x hx => hf x (by simp [hx]), ← hd,
      watchCluster_ok hw hl hP (by rw [hd]; exact hne) (by rw [hd]; exact hf _ (by simp))]

/-- Playing on from an entry. -/
theorem playOn_ok (hw : r.Whole) {g : ReadSegment} {xs : List (Nat × ClusterOf)} (h : LoadedAll r scale g.clusters xs)
    {fuel k i tc : Nat} {x : Nat × ClusterOf} {c c' : ReadCluster} {es : List Entry} {done rest : List Frame} {blocks : Bytes} {e : Entry}
    (hk : g.clusters[k]? = some c) (hx : xs[k]? = some x) (hl : c.load r = .ok c') (hP : Partway r scale tc c' es done rest blocks)
    (he : es[i]? = some e) (hd : done ++ rest = x.2.frames) (hfuel : ∀ y ∈ xs, y.2.frames.length ≤ fuel) (hf : xs.length ≤ fuel) :
    playOn r fuel g k i e = .ok ((x.2.frames.drop i ++ ((xs.drop (k + 1)).map (·.2.frames)).flatten).map (Frame.asWatched scale)) := by
  have hlen : es.length = done.length := by simpa using congrArg List.length hP.shown
  have hxl := hfuel x (List.mem_of_getElem? hx)
  have hkl := (List.getElem?_eq_some_iff.mp hx).1
  rw [← hd, List.length_append] at hxl
  unfold playOn
  rw [hk]
  simp only
  unfold ReadCluster.getTimeCode
  rw [hl]
  simp only [Res.bind_ok]
  rw [hP.timecode]
  simp only [Option.elim]
  rw [watchFrom_ok hw fuel hP he (by omega), hd, Res.bind_ok]
  unfold ReadSegment.getNext
  rw [h.length]
  by_cases hlast : xs.length ≤ k + 1
  · rw [if_pos hlast, List.drop_eq_nil_of_le hlast, watchClusters]
    simp only [Res.bind_ok, List.map_nil, List.flatten_nil, List.append_nil]
  · rw [if_neg hlast, watchClusters_ok hw h hfuel (xs.length - (k + 1)) rfl (by omega) (by omega), Res.bind_ok, List.map_append]

/-- The table lookup of `GetBlock`. -/
theorem search_start {cs : List ReadCluster} {start k : Nat} {c : ReadCluster} (hk : cs[k]? = some c)
    (hsort : (cs.map (·.start)).Pairwise (· < ·)) (hge : ∀ c ∈ cs, start ≤ c.start) {req : Int} (hreq : req = (c.start : Int) - start) :
    searchLoop (cs.map fun c => some ⟨0, (c.start : Int) - start, 0⟩) cs.length req 0 cs.length = .ok (.inl k) := by
  have hps : (cs.map fun c => (⟨0, (c.start : Int) - start, 0⟩ : Clu)).length = cs.length := by simp
  have hs' : (cs.map fun c => (⟨0, (c.start : Int) - start, 0⟩ : Clu)).Pairwise fun a b => a.pos < b.pos := by
    rw [List.pairwise_map] at hsort ⊢
    exact hsort.imp fun h => by simp only; omega
  have h := searchLoop_spec (t := { mem := cs.map fun c => some ⟨0, (c.start : Int) - start, 0⟩ }) (ls := [])
    (ps := cs.map fun c => ⟨0, (c.start : Int) - start, 0⟩) (by
      intro k hk
      simp only [List.length_nil, Nat.zero_add, List.length_map] at hk
      have := hge cs[k] (List.getElem_mem hk)
      refine ⟨⟨0, (cs[k].start : Int) - start, 0⟩, ?_, ?_, ?_⟩
      · simp only [List.nil_append, List.getElem?_map, List.getElem?_eq_getElem hk, Option.map_some]
      · simp only [List.getElem?_map, List.getElem?_eq_getElem hk, Option.map_some]
      · simp only; omega) hs' req 0 cs.length (by omega) (by simp)
    (by intro k c hk; omega) (by
      intro _ j d hj hd
      rw [List.getElem?_eq_none (by simpa using hj)] at hd
      cases hd)
  simp only [List.length_nil, Nat.zero_add, List.length_map, List.nil_append] at h
  have hklt := (List.getElem?_eq_some_iff.mp hk).1
  have hck : cs[k] = c := (List.getElem?_eq_some_iff.mp hk).2
  rw [List.pairwise_iff_getElem] at hsort
  rcases h with ⟨k', d, h1, h2, h3⟩ | ⟨m, h1, -, hm, h2, h3⟩
  · rw [h1]
    rw [List.getElem?_map] at h2
    have hlt : k' < cs.length := by
      rcases Nat.lt_or_ge k' cs.length with h | h
      · exact h
      · rw [List.getElem?_eq_none h] at h2; cases h2
    rw [List.getElem?_eq_getElem hlt] at h2
    cases h2
    simp only at h3
    have : k' = k := by
      rcases Nat.lt_trichotomy k' k with h | h | h
      · have := hsort k' k (by simpa using hlt) (by simpa using hklt) h
        simp only [List.getElem_map, hck] at this
        omega
      · exact h
      · have := hsort k k' (by simpa using hklt) (by simpa using hlt) h
        simp only [List.getElem_map, hck] at this
        omega
    rw [this]
  · exfalso
    have hkk : (cs.map fun c => (⟨0, (c.start : Int) - start, 0⟩ : Clu))[k]? = some ⟨0, (c.start : Int) - start, 0⟩ := by
      rw [List.getElem?_map, hk]; rfl
    rcases Nat.lt_or_ge k m with hlt | hge'
    · have := h2 k _ hlt hkk
      simp only at this
      omega
    · have := h3 (by omega) k _ hge' hkk
      simp only at this
      omega

/-- `GetBlock` finds the block a cue names, and playing on shows what follows. -/
theorem getBlock_ok (hw : r.Whole) {g : ReadSegment} {xs : List (Nat × ClusterOf)} (h : LoadedAll r scale g.clusters xs)
    {fuel k i : Nat} {x : Nat × ClusterOf} {f : Frame} (hx : xs[k]? = some x) (hf : x.2.frames[i]? = some f)
    (hfuel : ∀ y ∈ xs, y.2.frames.length < fuel) (hfl : xs.length ≤ fuel) (hsort : (xs.map (·.1)).Pairwise (· < ·))
    (hge : ∀ y ∈ xs, g.start ≤ y.1) {cp : CuePoint} {tp : TrackPosition} (hpos : tp.pos = (x.1 : Int) - g.start)
    (hb : tp.block = (i : Int) + 1) (ht : tp.track = f.trackNumber) (hc : cp.timecode = ((f.timestamp / scale : Nat) : Int)) :
    ∃ g' e, g.getBlock r fuel cp tp = .ok (g', .entry k i e) ∧
      playOn r fuel g' k i e = .ok ((x.2.frames.drop i ++ ((xs.drop (k + 1)).map (·.2.frames)).flatten).map (Frame.asWatched scale)) := by
  have hkl := (List.getElem?_eq_some_iff.mp hx).1
  have hxe : xs[k] = x := (List.getElem?_eq_some_iff.mp hx).2
  obtain ⟨c, hc', hL⟩ := h.get hkl
  rw [hxe] at hL
  obtain ⟨p, x⟩ := x
  obtain ⟨c2, es, done, rest, blocks, e, h1, h2, h3, h4, h5, h6⟩ := getEntryFor_ok (tracks := g.tracks) hw hL hf
    (hfuel (p, x) (List.mem_of_getElem? hx)) hb ht hc
  have hst := h.starts
  have hsearch := search_start (start := g.start) hc' (by rw [hst]; exact hsort) (by
    intro d hd
    have : d.start ∈ g.clusters.map (·.start) := List.mem_map_of_mem hd
    rw [hst] at this
    obtain ⟨y, hy, e⟩ := List.mem_map.mp this
    have := hge y hy
    omega) (req := tp.pos) (by rw [hpos, hL.1])
  have hset : LoadedAll r scale (g.clusters.set k c2) xs := h.set hx ⟨h2, c2, es, done, rest, blocks, h3, h4, h6, by
    intro h0; rw [h0] at hf; cases hf⟩
  have hck := (List.getElem?_eq_some_iff.mp hc').1
  refine ⟨{ g with clusters := g.clusters.set k c2 }, e, ?_, ?_⟩
  · unfold ReadSegment.getBlock
    rw [hsearch, Res.bind_ok]
    simp only
    rw [hc']
    simp only
    rw [h1, Res.bind_ok]
    rfl
  · exact playOn_ok hw (g := { g with clusters := g.clusters.set k c2 }) hset (by simp [hck]) hx h3 h4 h5 h6
      (fun y hy => by have := hfuel y hy; omega) hfl

end

end Verif.Par

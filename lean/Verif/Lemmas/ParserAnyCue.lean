/-
Where mkvparser goes for any cue point, in a file whose clusters have been loaded.
-/
import Verif.Lemmas.ParserTrack
import Verif.Lemmas.ParserSeekFile
import Verif.Spec.AnyCue

namespace Verif.Par
open Verif Spec Mux

section
variable {r : Rdr} {scale : Nat}

/-- `m_entries[idx]` in `GetEntry`. -/
theorem entryAt_any (hw : r.Whole) {x : Nat × ClusterOf} {idx : Nat} : ∀ (fuel : Nat) {c : ReadCluster} {n : Nat},
    ParsedTo r scale c x n → x.2.frames.length < fuel + n →
    (idx < x.2.frames.length → ∃ c2 e, ReadCluster.entryAt r fuel c idx = .ok (c2, some e) ∧ Parsed r scale c2 x idx e) ∧
    (x.2.frames.length ≤ idx → ∃ c2, ReadCluster.entryAt r fuel c idx = .ok (c2, none) ∧ Loaded r scale c2 x) := by
  intro fuel
  induction fuel with
  | zero =>
    intro c n h hf
    obtain ⟨-, c', es, done, rest, blocks, -, h2, h3, -, hn⟩ := h
    have hlen : es.length = done.length := by simpa using congrArg List.length h2.shown
    rw [← h3, List.length_append] at hf
    omega
  | succ fuel ih =>
    intro c n h hf
    obtain ⟨h0, c', es, done, rest, blocks, h1, h2, h3, hne, hn⟩ := h
    have hent := h2.entries
    rw [(ReadCluster.load_entries h1).1] at hent
    have hlen : es.length = done.length := by simpa using congrArg List.length h2.shown
    have hdl : done.length ≤ x.2.frames.length := by rw [← h3, List.length_append]; omega
    obtain ⟨p1, p2⟩ := parse_step hw h0 h1 h2 h3 hne
    rw [ReadCluster.entryAt, hent]
    by_cases hi : idx < es.length
    · rw [List.getElem?_eq_getElem hi]
      exact ⟨fun _ => ⟨c, es[idx], rfl, h0, c', es, done, rest, blocks, h1, h2, h3, List.getElem?_eq_getElem hi⟩, fun h => by omega⟩
    · rw [List.getElem?_eq_none (by omega)]
      simp only
      by_cases hl : es.length < x.2.frames.length
      · obtain ⟨c2, e, q1, -, q3⟩ := p1 hl
        rw [q1]
        exact ih q3.to (by omega)
      · obtain ⟨c2, q1, -, q3⟩ := p2 (by omega)
        rw [q1]
        exact ⟨fun h => by omega, fun _ => ⟨c2, rfl, q3⟩⟩

theorem Parsed.blockTime {c : ReadCluster} {x : Nat × ClusterOf} {i : Nat} {e : Entry} {f : Frame} (h : Parsed r scale c x i e)
    (hf : x.2.frames[i]? = some f) :
    ∃ c2, c.blockTime r e = .ok (c2, (f.asWatched scale).time) ∧ Parsed r scale c2 x i e := by
  obtain ⟨b1, -, -⟩ := watchEntry_key (h.shows hf)
  obtain ⟨h0, c', es, done, rest, blocks, h1, h2, h3, h4⟩ := h
  refine ⟨c', ?_, (ReadCluster.load_entries h1).2.trans h0, c', es, done, rest, blocks, h2.load, h2, h3, h4⟩
  unfold ReadCluster.blockTime ReadCluster.getTimeCode
  rw [h1]
  simp only [Res.bind_ok]
  rw [h2.timecode]
  simp only [Option.elim]
  rw [b1]
  rfl

/-- What has been found in a cluster. -/
def FoundCue (r : Rdr) (scale : Nat) (c : ReadCluster) (x : Nat × ClusterOf) (o : Option (Nat × Entry)) (s : Option (List SeenFrame)) : Prop :=
  (o = none ∧ s = none) ∨ ∃ j e, o = some (j, e) ∧ Parsed r scale c x j e ∧ s = some ((x.2.frames.drop j).map (Frame.asWatched scale))

theorem vetCue_ok {ts : List ReadTrack} {tp : TrackPosition} {e : Entry} {f : SeenFrame} (h : e.block.isKey = f.key) :
    vetCue (some ts) tp e = .ok ((ts.find? fun t => decide (t.info.number = tp.track)).any fun t => t.accepts f) := by
  unfold vetCue
  simp only
  cases ts.find? fun t => decide (t.info.number = tp.track) with
  | none => rfl
  | some t => simp only [Option.any_some, ReadTrack.accepts, h]

/-- The search through the blocks. -/
theorem scanFor_any (hw : r.Whole) {ts : List ReadTrack} {cp : Par.CuePoint} {tp : TrackPosition} {rounds : Nat} {x : Nat × ClusterOf}
    (hro : x.2.frames.length < rounds) : ∀ (n : Nat) {c : ReadCluster} {i fuel : Nat}, x.2.frames.length - i = n → n < fuel →
    Loaded r scale c x →
    ∃ c2 o, ReadCluster.scanFor r (some ts) cp tp rounds fuel c i = .ok (c2, o) ∧ Loaded r scale c2 x ∧
      FoundCue r scale c2 x o (searched ts cp tp ((x.2.frames.drop i).map (Frame.asWatched scale))) := by
  intro n
  induction n with
  | zero =>
    intro c i fuel hn hf h
    obtain ⟨fuel, rfl⟩ : ∃ f, fuel = f + 1 := ⟨fuel - 1, by omega⟩
    obtain ⟨c2, e1, e2⟩ := (entryAt_any hw (idx := i) rounds h.to (by omega)).2 (by omega)
    rw [ReadCluster.scanFor, e1, Res.bind_ok]
    exact ⟨c2, none, rfl, e2, .inl ⟨rfl, by rw [List.drop_eq_nil_of_le (by omega)]; rfl⟩⟩
  | succ n ih =>
    intro c i fuel hn hf h
    obtain ⟨fuel, rfl⟩ : ∃ f, fuel = f + 1 := ⟨fuel - 1, by omega⟩
    have hi : i < x.2.frames.length := by omega
    have hfi := List.getElem?_eq_getElem hi
    obtain ⟨c2, e, e1, e2⟩ := (entryAt_any hw (idx := i) rounds h.to (by omega)).1 hi
    obtain ⟨-, k2, k3⟩ := watchEntry_key (e2.shows hfi)
    rw [ReadCluster.scanFor, e1, Res.bind_ok]
    simp only
    rw [k2, List.drop_eq_getElem_cons hi, List.map_cons, searched]
    by_cases ht : ((x.2.frames[i].asWatched scale).track : Int) ≠ tp.track
    · rw [if_pos ht, if_pos (.inl ht)]
      exact ih (by omega) (by omega) e2.loaded
    · rw [if_neg ht]
      obtain ⟨c3, b1, b2⟩ := e2.blockTime hfi
      rw [b1, Res.bind_ok]
      simp only
      by_cases hlt : (x.2.frames[i].asWatched scale).time < cp.timecode
      · rw [if_pos hlt, if_pos (.inr hlt)]
        exact ih (by omega) (by omega) b2.loaded
      · have hn : ¬ (((x.2.frames[i].asWatched scale).track : Int) ≠ tp.track ∨ (x.2.frames[i].asWatched scale).time < cp.timecode) :=
          fun h => h.elim ht hlt
        rw [if_neg hlt, if_neg hn]
        by_cases hgt : (x.2.frames[i].asWatched scale).time > cp.timecode
        · rw [if_pos hgt, if_neg (by omega)]
          exact ⟨c3, none, rfl, b2.loaded, .inl ⟨rfl, rfl⟩⟩
        · have heq : (x.2.frames[i].asWatched scale).time = cp.timecode := by omega
          rw [if_neg hgt, vetCue_ok k3, Res.bind_ok]
          generalize ((ts.find? fun t => decide (t.info.number = tp.track)).any fun t => t.accepts (x.2.frames[i].asWatched scale)) = b
          cases b with
          | true =>
            have hy : (x.2.frames[i].asWatched scale).time = cp.timecode ∧ true = true := ⟨heq, rfl⟩
            rw [if_pos hy]
            refine ⟨c3, _, rfl, b2.loaded, .inr ⟨i, e, rfl, b2, ?_⟩⟩
            rw [List.drop_eq_getElem_cons hi, List.map_cons]
          | false =>
            have hy : ¬ ((x.2.frames[i].asWatched scale).time = cp.timecode ∧ false = true) := fun h => by cases h.2
            rw [if_neg hy]
            exact ⟨c3, none, rfl, b2.loaded, .inl ⟨rfl, rfl⟩⟩

/-- `GetEntry`. -/
theorem getEntryFor_any (hw : r.Whole) {ts : List ReadTrack} {cp : Par.CuePoint} {tp : TrackPosition} {fuel : Nat} {x : Nat × ClusterOf}
    {c : ReadCluster} (h : Loaded r scale c x) (hf : x.2.frames.length < fuel) :
    ∃ c2 o, c.getEntryFor r fuel (some ts) cp tp = .ok (c2, o) ∧ Loaded r scale c2 x ∧
      FoundCue r scale c2 x o (named ts cp tp (x.2.frames.map (Frame.asWatched scale))) := by
  have scan : ∀ {c : ReadCluster}, Loaded r scale c x → ∃ c2 o, ReadCluster.scanFor r (some ts) cp tp fuel fuel c 0 = .ok (c2, o) ∧
      Loaded r scale c2 x ∧ FoundCue r scale c2 x o (searched ts cp tp (x.2.frames.map (Frame.asWatched scale))) := by
    intro c h
    have := scanFor_any hw (ts := ts) (cp := cp) (tp := tp) hf _ (i := 0) (fuel := fuel) rfl (by omega) h
    rw [List.drop_zero] at this
    exact this
  unfold ReadCluster.getEntryFor named
  by_cases hb : tp.block > 0
  · rw [if_pos hb, if_pos hb, ← List.map_drop]
    generalize (tp.block - 1).toNat = i
    obtain ⟨p1, p2⟩ := entryAt_any hw (idx := i) fuel h.to (by omega)
    by_cases hi : i < x.2.frames.length
    · obtain ⟨c2, e, e1, e2⟩ := p1 hi
      have hfi := List.getElem?_eq_getElem hi
      obtain ⟨-, k2, -⟩ := watchEntry_key (e2.shows hfi)
      rw [e1, Res.bind_ok]
      simp only
      rw [k2, List.drop_eq_getElem_cons hi, List.map_cons]
      simp only
      by_cases ht : ((x.2.frames[i].asWatched scale).track : Int) = tp.track
      · rw [if_pos ht]
        obtain ⟨c3, b1, b2⟩ := e2.blockTime hfi
        rw [b1, Res.bind_ok]
        simp only
        by_cases heq : (x.2.frames[i].asWatched scale).time = cp.timecode
        · rw [if_pos heq, if_pos ⟨ht, heq⟩]
          refine ⟨c3, _, rfl, b2.loaded, .inr ⟨i, e, rfl, b2, ?_⟩⟩
          rw [List.drop_eq_getElem_cons hi, List.map_cons]
        · rw [if_neg heq, if_neg fun h => heq h.2]
          exact scan b2.loaded
      · rw [if_neg ht, if_neg fun h => ht h.1]
        exact scan e2.loaded
    · obtain ⟨c2, e1, e2⟩ := p2 (by omega)
      rw [e1, Res.bind_ok, List.drop_eq_nil_of_le (by omega)]
      exact ⟨c2, none, rfl, e2, .inl ⟨rfl, rfl⟩⟩
  · rw [if_neg hb, if_neg hb]
    exact scan h

/-- No cluster at the place asked for. -/
theorem search_none {cs : List ReadCluster} {start : Nat} (hsort : (cs.map (·.start)).Pairwise (· < ·))
    (hge : ∀ c ∈ cs, start ≤ c.start) {req : Int} (hne : ∀ c ∈ cs, req ≠ (c.start : Int) - start)
    (hlt : ∃ c ∈ cs, req < (c.start : Int) - start) :
    ∃ m, searchLoop (cs.map fun c => some ⟨0, (c.start : Int) - start, 0⟩) cs.length req 0 cs.length = .ok (.inr m) ∧
      m < cs.length := by
  have hs' : (cs.map fun c => (⟨0, (c.start : Int) - start, 0⟩ : Clu)).Pairwise fun a b => a.pos < b.pos := by
    rw [List.pairwise_map] at hsort ⊢
    exact hsort.imp fun h => by simp only; omega
  have h := searchLoop_spec (t := { mem := cs.map fun c => some ⟨0, (c.start : Int) - start, 0⟩ }) (ls := [])
    (ps := cs.map fun c => ⟨0, (c.start : Int) - start, 0⟩) (by
      intro k hk
      simp only [List.length_nil, Nat.zero_add, List.length_map] at hk
      have := hge cs[k] (List.getElem_mem hk)
      refine ⟨⟨0, (cs[k].start : Int) - start, 0⟩, ?_, ?_, ?_⟩
      · simp only [List.nil_append, List.getElem?_map, List.getElem?_eq_getElem hk, Option.map_some]
      · simp only [List.getElem?_map, List.getElem?_eq_getElem hk, Option.map_some]
      · simp only; omega) hs' req 0 cs.length (by omega) (by simp)
    (by intro k c hk; omega) (by
      intro _ j d hj hd
      rw [List.getElem?_eq_none (by simpa using hj)] at hd
      cases hd)
  simp only [List.length_nil, Nat.zero_add, List.length_map, List.nil_append] at h
  rcases h with ⟨k', d, h1, h2, h3⟩ | ⟨m, h1, -, hm, h2, h3⟩
  · exfalso
    rw [List.getElem?_map] at h2
    cases hk : cs[k']? with
    | none => rw [hk] at h2; cases h2
    | some c =>
      rw [hk] at h2
      cases h2
      exact hne c (List.mem_of_getElem? hk) h3.symm
  · refine ⟨m, h1, ?_⟩
    rcases Nat.lt_or_ge m cs.length with h | h
    · exact h
    · exfalso
      obtain ⟨c, hc, hlt⟩ := hlt
      obtain ⟨k, hk⟩ := List.getElem?_of_mem hc
      have := h2 k ⟨0, (c.start : Int) - start, 0⟩ (by have := (List.getElem?_eq_some_iff.mp hk).1; omega) (by rw [List.getElem?_map, hk]; rfl)
      simp only at this
      omega

/-- `GetBlock`, and playing on. -/
theorem goTo_any (hw : r.Whole) {g : ReadSegment} {xs : List (Nat × ClusterOf)} (h : LoadedAll r scale g.clusters xs)
    {ts : List ReadTrack} (hts : g.tracks = some ts) {fuel : Nat}
    (hfuel : ∀ y ∈ xs, y.2.frames.length < fuel) (hfl : xs.length ≤ fuel) (hsort : (xs.map (·.1)).Pairwise (· < ·))
    (hge : ∀ y ∈ xs, g.start ≤ y.1) (cp : Par.CuePoint) (tp : TrackPosition) :
    (∀ (k : Nat) (x : Nat × ClusterOf), xs[k]? = some x → tp.pos = (x.1 : Int) - g.start →
      goTo r fuel g cp tp = .ok ((named ts cp tp (x.2.frames.map (Frame.asWatched scale))).map
        (· ++ (((xs.drop (k + 1)).map (·.2.frames)).flatten).map (Frame.asWatched scale)))) ∧
    ((∀ x ∈ xs, tp.pos ≠ (x.1 : Int) - g.start) → (∃ x ∈ xs, tp.pos < (x.1 : Int) - g.start) → goTo r fuel g cp tp = .ok none) := by
  have hst := h.starts
  have hsort' : (g.clusters.map (·.start)).Pairwise (· < ·) := by rw [hst]; exact hsort
  have hof : ∀ c ∈ g.clusters, ∃ y ∈ xs, y.1 = c.start := by
    intro c hc
    have : c.start ∈ g.clusters.map (·.start) := List.mem_map_of_mem hc
    rw [hst] at this
    exact List.mem_map.mp this
  have hfo : ∀ y ∈ xs, ∃ c ∈ g.clusters, c.start = y.1 := by
    intro y hy
    have : y.1 ∈ xs.map (·.1) := List.mem_map_of_mem hy
    rw [← hst] at this
    exact List.mem_map.mp this
  have hge' : ∀ c ∈ g.clusters, g.start ≤ c.start := by
    intro c hc
    obtain ⟨y, hy, e⟩ := hof c hc
    have := hge y hy
    omega
  constructor
  · intro k x hx hpos
    have hkl := (List.getElem?_eq_some_iff.mp hx).1
    have hxe : xs[k] = x := (List.getElem?_eq_some_iff.mp hx).2
    obtain ⟨c, hc', hL⟩ := h.get hkl
    rw [hxe] at hL
    have hck := (List.getElem?_eq_some_iff.mp hc').1
    have hsearch := search_start (start := g.start) hc' hsort' hge' (req := tp.pos) (by rw [hpos, hL.1])
    obtain ⟨c2, o, h1, h2, h3⟩ := getEntryFor_any hw (ts := ts) (cp := cp) (tp := tp) hL (hfuel x (List.mem_of_getElem? hx))
    unfold goTo ReadSegment.getBlock
    rw [hsearch, Res.bind_ok]
    simp only
    rw [hc']
    simp only
    rw [hts, h1, Res.bind_ok]
    rcases h3 with ⟨rfl, h3⟩ | ⟨j, e, rfl, h3, h4⟩
    · rw [h3]
      rfl
    · rw [h4]
      simp only [Res.bind_ok, Option.elim_some, Option.map_some]
      obtain ⟨h0, c', es, done, rest, blocks, q1, q2, q3, q4⟩ := h3
      have hne : x.2.frames ≠ [] := by
        obtain ⟨-, -, -, -, -, -, -, -, -, hne⟩ := h2
        exact hne
      have hlen : es.length = done.length := by simpa using congrArg List.length q2.shown
      have hjl := (List.getElem?_eq_some_iff.mp q4).1
      have hplay : playOn r fuel { g with clusters := g.clusters.set k c2 } k j e =
          .ok ((x.2.frames.drop j ++ ((xs.drop (k + 1)).map (·.2.frames)).flatten).map (Frame.asWatched scale)) := by
        exact playOn_ok hw (g := { g with clusters := g.clusters.set k c2 }) (h.set hx h2) (by simp [hck]) hx q1 q2 q4 q3
          (fun y hy => by have := hfuel y hy; omega) hfl
      rw [← hts, hplay, Res.bind_ok, List.map_append]
  · intro hne hlt
    obtain ⟨m, h1, h2⟩ := search_none hsort' hge' (req := tp.pos) (by
      intro c hc
      obtain ⟨y, hy, e⟩ := hof c hc
      have := hne y hy
      rw [e] at this
      exact this) (by
      obtain ⟨x, hx, hlt⟩ := hlt
      obtain ⟨c, hc, e⟩ := hfo x hx
      exact ⟨c, hc, by rw [e]; exact hlt⟩)
    unfold goTo ReadSegment.getBlock
    rw [h1, Res.bind_ok]
    simp only
    rw [if_pos (.inr h2)]
    rfl

end

end Verif.Par

namespace Verif.Props
open Verif Verif.Par Verif.Mux Spec

section
variable {r : Rdr} {scale : Nat}

/-- The places of the clusters, and the frames they show. -/
def placed (scale : Nat) (cs : List (Nat × ClusterOf)) : List (Nat × List SeenFrame) :=
  cs.map fun c => (c.1, c.2.frames.map (Frame.asWatched scale))

theorem placed_in {cs : List (Nat × ClusterOf)} : (placed scale cs).map (·.2) = watchedClusters scale cs := by
  simp only [placed, watchedClusters, List.map_map, Function.comp_def]

/-- Cue points in a file with these clusters. -/
theorem leads_file {file : Bytes} {h : Shown} {cs : List (Nat × ClusterOf)} {cues : Option (Nat × Bytes)}
    {off : Nat} {sized : Bool} {bs : Bytes} (ho : Opens file h scale cs cues) (hcs : ClustersAt scale sized off cs bs) :
    LeadsAs file h.tracks (placed scale cs) := by
  intro r hr htotal fuel hfuel
  obtain ⟨pos, head, g, g', h1, -, h3, h4, h5, h6, -, -, h9, -, -, h12, h13, -⟩ := ho r hr htotal fuel hfuel
  have hw : r.Whole := by unfold Rdr.Whole; rw [htotal, hr]
  obtain ⟨hsort, -⟩ := clusters_ordered hcs
  have hlens : ∀ fs ∈ cs.map (fun c => (g'.start + c.1, c.2)), fs.2.frames.length < fuel := by
    intro fs hfs
    obtain ⟨c, hc, rfl⟩ := List.mem_map.mp hfs
    have := h12 c hc
    simp only
    omega
  refine ⟨pos, head, g, g', h1, h3, h4, h6, ?_, ?_, ?_⟩
  · have := congrArg (List.map fun n : Nat => (n : Int) - g'.start) h9.starts
    simp only [List.map_map, Function.comp_def] at this
    rw [this]
    simp only [placed, List.map_map, Function.comp_def]
    exact List.map_congr_left fun c _ => by omega
  · rw [h9.watched hw fun fs hfs => Nat.le_of_lt (hlens fs hfs)]
    simp only [placed, List.map_map, Function.comp_def]
  intro cp tp
  obtain ⟨p1, p2⟩ := goTo_any hw h9 h6 hlens (by rw [List.length_map]; omega) (by
      simp only [List.map_map, Function.comp_def]
      rw [List.pairwise_map] at hsort ⊢
      exact hsort.imp fun h => by omega) (by
      intro y hy
      obtain ⟨c, -, rfl⟩ := List.mem_map.mp hy
      simp only
      omega) cp tp
  constructor
  · intro before o fs after e hpos
    obtain ⟨a, b, e1, e2, e3⟩ := List.map_eq_append_iff.mp e
    obtain ⟨c, b', rfl, e4, e5⟩ := List.map_eq_cons_iff.mp e3
    cases e4
    subst e1
    rw [p1 a.length (g'.start + c.1, c.2) (by simp) (by simp only; omega)]
    congr 2
    funext l
    rw [← e5]
    simp only [List.map_append, List.map_cons, List.map_map, Function.comp_def, List.map_flatten]
    congr 2
    rw [List.drop_append, List.drop_eq_nil_of_le (by simp)]
    simp [Function.comp_def]
  · intro hne hlt
    refine p2 ?_ ?_
    · intro x hx
      obtain ⟨c, hc, rfl⟩ := List.mem_map.mp hx
      have := hne _ (List.mem_map_of_mem (f := fun c : Nat × ClusterOf => (c.1, c.2.frames.map (Frame.asWatched scale))) hc)
      simp only at this ⊢
      omega
    · obtain ⟨c, hc, hlt⟩ := hlt
      obtain ⟨x, hx, rfl⟩ := List.mem_map.mp hc
      refine ⟨_, List.mem_map_of_mem hx, ?_⟩
      simp only at hlt ⊢
      omega

end

end Verif.Props

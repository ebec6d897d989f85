/-
Lemmas for C88: the first and last times of clusters.
-/
import Verif.Lemmas.ParserTrackFile
import Verif.Spec.Times

namespace Verif.Props
open Verif Spec Mux Par

variable {r : Rdr} {scale : Nat}

/-- The last entry of a cluster. -/
theorem getLast_ok (hw : r.Whole) : ∀ {fuel : Nat} {c c' : ReadCluster} {x : Nat × ClusterOf} {es : List Entry} {done rest : List Frame}
    {blocks : Bytes}, c.start = x.1 → c.load r = .ok c' → Partway r scale x.2.tc c' es done rest blocks → done ++ rest = x.2.frames →
    x.2.frames ≠ [] → x.2.frames.length - es.length < fuel →
    ∃ c2 e, c.getLast r fuel = (c2, .ok (some e)) ∧ Parsed r scale c2 x (x.2.frames.length - 1) e := by
  intro fuel
  induction fuel with
  | zero => intro c c' x es done rest blocks _ _ _ _ _ h; omega
  | succ fuel ih =>
    intro c c' x es done rest blocks h0 h1 h2 h3 hne hf
    have hlen : es.length = done.length := by simpa using congrArg List.length h2.shown
    have hpos := List.length_pos_iff.mpr hne
    obtain ⟨p1, p2⟩ := parse_step hw h0 h1 h2 h3 hne
    by_cases hlt : es.length < x.2.frames.length
    · obtain ⟨c2, e, q1, q2, q3⟩ := p1 hlt
      have hlast : ∀ {es2 : List Entry} {c3 : ReadCluster}, c2.load r = .ok c3 → c3.entries.getD [] = es2 → es2.length = es.length + 1 := by
        intro es2 c3 k1 k2
        rw [← k2, (ReadCluster.load_entries k1).1, q2]; simp
      obtain ⟨k0, c3, es3, done3, rest3, blocks3, k1, k2, k3, k4⟩ := q3
      have := hlast k1 k2.entries
      unfold ReadCluster.getLast
      rw [q1]
      exact ih k0 k1 k2 k3 hne (by omega)
    · have heq : es.length = x.2.frames.length := by
        have : done.length ≤ x.2.frames.length := by rw [← h3, List.length_append]; omega
        omega
      obtain ⟨c2, q1, q2, q3⟩ := p2 heq
      unfold ReadCluster.getLast
      rw [q1]
      simp only
      obtain ⟨k0, c3, es3, done3, rest3, blocks3, k1, k2, k3, k4⟩ := q3
      have he : es3 = es := by rw [← k2.entries, (ReadCluster.load_entries k1).1, q2]
      subst he
      obtain ⟨e, hge⟩ : ∃ e, es3[x.2.frames.length - 1]? = some e := ⟨_, List.getElem?_eq_getElem (by omega)⟩
      refine ⟨c2, e, ?_, k0, c3, es3, done3, rest3, blocks3, k1, k2, k3, hge⟩
      rw [q2, List.getLast?_eq_getElem?, heq, hge]

theorem timeOf_ok {c : ReadCluster} {x : Nat × ClusterOf} {i : Nat} {e : Entry} {f : Frame} (h : Parsed r scale c x i e)
    (hf : x.2.frames[i]? = some f) (ht : Timed scale x) :
    ∃ c2, c.timeOf r (some (scale : Int)) (some e) = (c2, .ok ((f.asWatched scale).time * scale)) ∧ Loaded r scale c2 x := by
  obtain ⟨c2, h1, h2, -⟩ := h.blockNs hf ht
  refine ⟨c2, ?_, h2⟩
  unfold ReadCluster.timeOf
  simp only
  rw [h1]

theorem firstTime_ok (hw : r.Whole) {c : ReadCluster} {x : Nat × ClusterOf} (h : Loaded r scale c x) (ht : Timed scale x) :
    ∃ c2 f, x.2.frames.head? = some f ∧ c.getFirstTime r (some (scale : Int)) = (c2, .ok ((f.asWatched scale).time * scale)) ∧
      Loaded r scale c2 x := by
  obtain ⟨c1, e, h1, h2⟩ := getFirst_ok hw h
  have hf : x.2.frames[0]? = some (x.2.frames[0]'h2.len) := List.getElem?_eq_getElem _
  obtain ⟨c2, h3, h4⟩ := timeOf_ok h2 hf ht
  refine ⟨c2, _, by rw [List.head?_eq_getElem?]; exact hf, ?_, h4⟩
  unfold ReadCluster.getFirstTime
  rw [h1]
  exact h3

theorem lastTime_ok (hw : r.Whole) {fuel : Nat} {c : ReadCluster} {x : Nat × ClusterOf} (h : Loaded r scale c x) (ht : Timed scale x)
    (hfuel : x.2.frames.length < fuel) :
    ∃ c2 f, x.2.frames.getLast? = some f ∧ c.getLastTime r fuel (some (scale : Int)) = (c2, .ok ((f.asWatched scale).time * scale)) ∧
      Loaded r scale c2 x := by
  obtain ⟨h0, c', es, done, rest, blocks, k1, k2, k3, k4⟩ := h
  obtain ⟨c1, e, h1, h2⟩ := getLast_ok hw h0 k1 k2 k3 k4 (fuel := fuel) (by omega)
  have hf : x.2.frames[x.2.frames.length - 1]? = some (x.2.frames[x.2.frames.length - 1]'h2.len) := List.getElem?_eq_getElem _
  obtain ⟨c2, h3, h4⟩ := timeOf_ok h2 hf ht
  refine ⟨c2, _, by rw [List.getLast?_eq_getElem?]; exact hf, ?_, h4⟩
  unfold ReadCluster.getLastTime
  rw [h1]
  exact h3

theorem askTimes_ok (hw : r.Whole) {fuel : Nat} {xs : List (Nat × ClusterOf)} (ht : ∀ x ∈ xs, Timed scale x)
    (hfuel : ∀ x ∈ xs, x.2.frames.length < fuel) : ∀ (qs : List Question) {g : ReadSegment}, LoadedAll r scale g.clusters xs →
    g.info.map (·.timecodeScale) = some (scale : Int) → (∀ q ∈ qs, q.1 < xs.length) →
    ∃ g2 ts, askTimes r fuel g qs = .ok (g2, ts) ∧ ts.map some = qs.map (rightTime scale (seenIn scale xs)) ∧
      LoadedAll r scale g2.clusters xs := by
  intro qs
  induction qs with
  | nil => intro g h _ _; exact ⟨g, [], rfl, rfl, h⟩
  | cons q qs ih =>
    intro g h hi hq
    obtain ⟨k, last⟩ := q
    have hk : k < xs.length := hq (k, last) (List.mem_cons_self ..)
    have hx : xs[k]? = some xs[k] := List.getElem?_eq_getElem hk
    obtain ⟨c, hc, hL⟩ := h.get hk
    have hT := ht _ (List.getElem_mem hk)
    have hF := hfuel _ (List.getElem_mem hk)
    have hr : ∀ f, (if last then (xs[k]).2.frames.getLast? else (xs[k]).2.frames.head?) = some f →
        rightTime scale (seenIn scale xs) (k, last) = some ((f.asWatched scale).time * scale) := by
      intro f hf
      unfold rightTime seenIn
      simp only
      rw [List.getElem?_map, hx]
      simp only [Option.map_some, Option.bind_some]
      cases last with
      | true =>
        simp only [if_true] at hf ⊢
        rw [List.getLast?_map, hf]; rfl
      | false =>
        simp only [Bool.false_eq_true, if_false] at hf ⊢
        rw [List.head?_map, hf]; rfl
    obtain ⟨c2, f, a1, a2, a3⟩ : ∃ c2 f, (if last then (xs[k]).2.frames.getLast? else (xs[k]).2.frames.head?) = some f ∧
        (if last then c.getLastTime r fuel (some (scale : Int)) else c.getFirstTime r (some (scale : Int))) =
          (c2, .ok ((f.asWatched scale).time * scale)) ∧ Loaded r scale c2 xs[k] := by
      cases last with
      | true => exact lastTime_ok hw hL hT hF
      | false => exact firstTime_ok hw hL hT
    obtain ⟨g2, ts, b1, b2, b3⟩ := ih (g := { g with clusters := g.clusters.set k c2 }) (h.set hx a3) hi
      fun q hq' => hq q (List.mem_cons_of_mem _ hq')
    refine ⟨g2, (f.asWatched scale).time * scale :: ts, ?_, ?_, b3⟩
    · unfold askTimes
      rw [hc]
      simp only
      rw [hi, a2]
      simp only [Res.bind_ok]
      rw [b1, Res.bind_ok]
    · rw [List.map_cons, List.map_cons, b2, hr f a1]

theorem times_file {file : Bytes} {h : Shown} {cs : List (Nat × ClusterOf)} {cues : Option (Nat × Bytes)}
    {off : Nat} {sized : Bool} {bs : Bytes} (ho : Opens file h scale cs cues) (hcs : ClustersAt scale sized off cs bs)
    (hscale : 1 ≤ scale) (hinfo : h.info.timecodeScale = scale)
    (hmax : ∀ f ∈ clusterFrames cs, f.timestamp < 2 ^ 63) : TimesAs file scale (watchedClusters scale cs) := by
  intro r hr htotal fuel hfuel
  obtain ⟨pos, head, g, g', h1, -, h3, h4, h5, -, -, -, h9, -, -, h12, h13, h14, h15, h16⟩ := ho r hr htotal fuel hfuel
  have hw : r.Whole := by unfold Rdr.Whole; rw [htotal, hr]
  have hlens : ∀ x ∈ cs.map (fun c => (g'.start + c.1, c.2)), x.2.frames.length < fuel := by
    intro fs hfs
    obtain ⟨c, hc, rfl⟩ := List.mem_map.mp hfs
    have := h12 c hc
    simp only
    omega
  have hseen : seenIn scale (cs.map fun c => (g'.start + c.1, c.2)) = watchedClusters scale cs := by
    show _ = seenIn scale cs
    simp only [seenIn, List.map_map, Function.comp_def]
  have hlen : ∀ {gs : List ReadCluster}, LoadedAll r scale gs (cs.map fun c => (g'.start + c.1, c.2)) →
      gs.length = (watchedClusters scale cs).length := by
    intro gs hgs
    rw [hgs.length, ← hseen]; simp [seenIn]
  refine ⟨pos, head, g, g', h1, h3, h4, hlen h9, fun qs hqs => ?_⟩
  obtain ⟨g2, ts, b1, b2, b3⟩ := askTimes_ok hw (fuel := fuel) (xs := cs.map fun c => (g'.start + c.1, c.2)) (by
      intro x hx
      obtain ⟨c, hc, rfl⟩ := List.mem_map.mp hx
      refine ⟨hscale, fun f hf => clusters_after hcs c hc f hf, fun f hf => ?_⟩
      have hm := hmax f (by
        unfold clusterFrames
        exact List.mem_flatten.mpr ⟨_, List.mem_map_of_mem (f := fun c : Nat × ClusterOf => c.2.frames) hc, hf⟩)
      have := Nat.div_mul_le_self f.timestamp scale
      unfold llongMax
      omega) hlens qs h9 (by rw [h5, Option.map_some, hinfo]) (by
        intro q hq
        have := hqs q hq
        rw [← hlen h9, h9.length] at this
        exact this)
  refine ⟨g2, ts, b1, by rw [b2, hseen], ?_, ?_⟩
  · rw [b3.watched hw fun x hx => Nat.le_of_lt (hlens x hx), ← hseen]
    simp [seenIn]
  · unfold ReadSegment.getLast
    rw [hlen b3]
    by_cases he : watchedClusters scale cs = []
    · rw [if_pos he, he]; rfl
    · rw [if_neg he, if_neg fun h => he (List.length_eq_zero_iff.mp h)]

end Verif.Props

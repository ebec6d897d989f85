/-
Following the tracks of a file.
-/
import Verif.Lemmas.ParserTrack
import Verif.Lemmas.ParserSeekFile

namespace Verif.Props
open Verif Spec Mux Par

theorem blocks_after {tc scale : Nat} {fs : List Frame} {bs : Bytes} (h : Blocks tc scale fs bs) :
    ∀ f ∈ fs, tc ≤ f.timestamp / scale := by
  induction h with
  | nil => simp
  | cons h _ ih =>
    intro g hg
    rcases List.mem_cons.mp hg with rfl | hg
    · exact h.1
    · exact ih g hg

theorem clusters_after {scale off : Nat} {sized : Bool} {cs : List (Nat × ClusterOf)} {bs : Bytes}
    (h : ClustersAt scale sized off cs bs) : ∀ c ∈ cs, ∀ f ∈ c.2.frames, c.2.tc ≤ f.timestamp / scale := by
  induction h with
  | nil => simp
  | cons h _ ih =>
    intro c hc
    rcases List.mem_cons.mp hc with rfl | hc
    · obtain ⟨body, ⟨w, blocks, -, -, -, hb, rfl⟩, -, rfl⟩ := h
      exact blocks_after hb
    · exact ih c hc

theorem shown_clusters {r : Rdr} {scale : Nat} (hw : r.Whole) {cs : List ReadCluster} {xs : List (Nat × ClusterOf)}
    (h : LoadedAll r scale cs xs) {fuel : Nat} : (∀ x ∈ xs, x.2.frames.length ≤ fuel) →
    cs.map (showCluster r fuel) = xs.map fun x => .ok ((x.2.tc : Int), x.2.frames.map (Frame.asWatched scale)) := by
  induction h with
  | nil => intro _; rfl
  | cons h _ ih =>
    intro hf
    obtain ⟨c2, h1, -⟩ := h.time
    obtain ⟨-, c', es, done, rest, blocks, hl, hP, hd, hne⟩ := h
    rw [List.map_cons, List.map_cons, ih fun x hx => hf x (by simp [hx])]
    unfold showCluster
    rw [h1, Res.bind_ok, ← hd, watchCluster_ok hw hl hP (by rw [hd]; exact hne) (by rw [hd]; exact hf _ (by simp))]
    rfl

theorem tracks_file {scale : Nat} {file : Bytes} {h : Shown} {cs : List (Nat × ClusterOf)} {cues : Option (Nat × Bytes)}
    {off : Nat} {sized : Bool} {bs : Bytes} (ho : Opens file h scale cs cues) (hcs : ClustersAt scale sized off cs bs)
    (hscale : 1 ≤ scale) (hinfo : h.info.timecodeScale = scale) (hmono : (cs.map (·.2.tc)).Pairwise (· ≤ ·))
    (hmax : ∀ f ∈ clusterFrames cs, f.timestamp < 2 ^ 63) :
    TracksAs file scale (fun t => t.info.type = 1 →
      ((watchedClusters scale cs).flatten.filter t.isOf).Pairwise fun a b => a.time ≤ b.time) (seenAt scale cs) := by
  intro r hr htotal fuel hfuel
  obtain ⟨pos, head, g, g', h1, -, h3, h4, h5, -, -, -, h9, -, -, h12, h13, h14, h15, h16⟩ := ho r hr htotal fuel hfuel
  have hw : r.Whole := by unfold Rdr.Whole; rw [htotal, hr]
  have hlens : ∀ x ∈ cs.map (fun c => (g'.start + c.1, c.2)), x.2.frames.length < fuel := by
    intro fs hfs
    obtain ⟨c, hc, rfl⟩ := List.mem_map.mp hfs
    have := h12 c hc
    simp only
    omega
  have hK : Known r scale fuel g' (cs.map fun c => (g'.start + c.1, c.2)) := by
    refine ⟨h9, ?_, by rw [List.length_map]; omega, hlens⟩
    unfold ReadSegment.doneParsing
    cases hs : g'.stop with
    | none => simp only; rw [htotal, h15]; exact decide_eq_true ⟨by omega, Int.le_refl _⟩
    | some s => simp only; rw [h16 s hs, h15]; exact decide_eq_true (Int.le_refl _)
  have hseen : seenIn scale (cs.map fun c => (g'.start + c.1, c.2)) = seenIn scale cs := by
    simp only [seenIn, List.map_map, Function.comp_def]
  have hat : seenAt scale (cs.map fun c => (g'.start + c.1, c.2)) = seenAt scale cs := by
    simp only [seenAt, List.map_map, Function.comp_def]
  have hwc : watchedClusters scale cs = seenIn scale cs := rfl
  have hcount : (seenIn scale cs).flatten.length ≤ fuel := by
    rw [← hwc, watchedClusters_flatten, List.length_map]; omega
  refine ⟨pos, head, g, g', h1, h3, h4, ?_, fun t => ⟨?_, fun hok time => ?_⟩⟩
  · rw [shown_clusters hw h9 fun x hx => Nat.le_of_lt (hlens x hx)]
    simp only [seenAt, List.map_map, Function.comp_def]
  · rw [playWhole_ok hw t hK (by rw [hseen]; exact hcount), hseen, seenAt_in]
  · rw [← hat]
    refine playSeek_ok hw t time hK (by rw [hseen]; exact hcount) (by rw [h5, Option.map_some, hinfo]) ?_ ?_ ?_
    · intro x hx
      obtain ⟨c, hc, rfl⟩ := List.mem_map.mp hx
      refine ⟨hscale, fun f hf => clusters_after hcs c hc f hf, fun f hf => ?_⟩
      have hm := hmax f (by
        unfold clusterFrames
        exact List.mem_flatten.mpr ⟨_, List.mem_map_of_mem (f := fun c : Nat × ClusterOf => c.2.frames) hc, hf⟩)
      have := Nat.div_mul_le_self f.timestamp scale
      unfold llongMax
      omega
    · simpa only [List.map_map, Function.comp_def] using hmono
    · rw [hseen]; exact hok

end Verif.Props

/-
C94: the memory and the completeness of the cue points as loaded.
-/
import Verif.Lemmas.ParserCuesMem

namespace Verif.Props
open Verif Verif.Spec Verif.Par.CuesMem Verif.Mux.Build

/-- Whatever the cues of a file are, whichever allocations fail and however often `LoadCuePoint` is called: there is no undefined behaviour; the
first calls answer yes and the others no; as many cue points are shown as calls answered yes; they are the first of the file, they are whole, and
each shows the time and all the track positions it has in the file; and the destructor leaves nothing allocated. -/
theorem C94_loaded (can : Nat → Bool) (es : List CuesPart) (hp : Placed es) (n : Nat) :
    ∃ k x m m', loads can es n { rest := es } {} = .ok (List.replicate k true ++ List.replicate (n - k) false, x, m) ∧ k ≤ n ∧
      k ≤ (pointsIn es).length ∧ shown x.loaded = .ok (((pointsIn es).take k).map pointSaid) ∧ (∀ ps ∈ (pointsIn es).take k, PointGood ps) ∧
      destroy x m = .ok m' ∧ m'.live = [] := by
  obtain ⟨k, x, m, e, h1, h2, h3, -, h5, h6, -⟩ := loads_spec (can := can) hp (n := n) (x := { rest := es }) (m := {}) (vs := []) (Or.inl rfl) rfl
    (fun a => by simp [cuesA])
  obtain ⟨m', e', h'⟩ := destroy_spec h3
  exact ⟨k, x, m, m', e, h1, h2, by simpa using h5, h6, e', h'⟩

/-- With memory enough, and nothing malformed between the cue points, every call loads the next cue point as long as they are whole. -/
theorem C94_all (can : Nat → Bool) (hc : Enough can) (es : List CuesPart) (hp : Placed es) (hb : CuesPart.bad ∉ es) (n : Nat)
    (hg : ∀ ps ∈ (pointsIn es).take n, PointGood ps) :
    ∃ x m, loads can es n { rest := es } {} =
        .ok (List.replicate (min n (pointsIn es).length) true ++ List.replicate (n - (pointsIn es).length) false, x, m) ∧
      shown x.loaded = .ok (((pointsIn es).take n).map pointSaid) := by
  obtain ⟨k, x, m, e, -, -, -, -, h5, -, h7⟩ := loads_spec (can := can) hp (n := n) (x := { rest := es }) (m := {}) (vs := []) (Or.inl rfl) rfl
    (fun a => by simp [cuesA])
  have hk := h7 hc hb hg
  have hk : k = min n (pointsIn es).length := hk
  subst hk
  refine ⟨x, m, ?_, ?_⟩
  · rw [e, show n - min n (pointsIn es).length = n - (pointsIn es).length by omega]
  · have h5 : shown x.loaded = .ok ([] ++ ((pointsIn es).take (min n (pointsIn es).length)).map pointSaid) := h5
    rw [h5, List.nil_append]
    congr 2
    rcases Nat.le_total n (pointsIn es).length with h | h
    · rw [Nat.min_eq_left h]
    · rw [Nat.min_eq_right h, List.take_length, List.take_of_length_le h]

/-- Three cue points, the second with two track positions and two times, the third with track positions that are refused. -/
private def sample : List CuesPart :=
  [.other, .point 10 [.time 0, .tp (some (1, 50, 1))], .point 20 [.time 3, .tp (some (1, 60, 1)), .other, .tp (some (2, 60, 2)), .time 5],
    .other, .point 30 [.time 9, .tp (some (1, 70, 1)), .tp none]]

example : Placed sample := by
  intro pos ps h
  simp only [sample, List.mem_cons, reduceCtorEq, CuesPart.point.injEq, List.not_mem_nil, or_false, false_or] at h
  omega

example : CuesPart.bad ∉ sample ∧ ∀ ps ∈ (pointsIn sample).take 2, PointGood ps := by
  refine ⟨by simp [sample], fun ps h => ?_⟩
  have h : ps ∈ [_, _] := h
  simp only [List.mem_cons, List.not_mem_nil, or_false] at h
  rcases h with rfl | rfl <;> exact ⟨by simp, by simp, by decide, by decide⟩

/-- With memory the first two are loaded; without memory for the positions of the second, only the first, and no call after it loads one. -/
example : (∃ x m, loads (fun _ => true) sample 4 { rest := sample } {} = .ok ([true, true, false, false], x, m) ∧
      shown x.loaded = .ok [(0, [(1, 50, 1)]), (5, [(1, 60, 1), (2, 60, 2)])] ∧ m.live.length = 7) ∧
    ∃ x m, loads (fun n => n != 5) sample 4 { rest := sample } {} = .ok ([true, false, false, false], x, m) ∧
      shown x.loaded = .ok [(0, [(1, 50, 1)])] ∧ m.live.length = 5 :=
  ⟨⟨_, _, rfl, rfl, rfl⟩, ⟨_, _, rfl, rfl, rfl⟩⟩

/-- That a cue point is lost is not told apart from the end of the cues: after an allocation failed, `LoadCuePoint` answers no and the cues are
done, for any file that has a cue point. -/
theorem C94_lost (can : Nat → Bool) (h : can 0 = false) (es : List CuesPart) (pos : Nat) (ps : List PointPart) :
    ∃ m, loadCuePoint can (.point pos ps :: es) { rest := .point pos ps :: es } {} = .ok (false, { rest := [] }, m) := by
  refine ⟨{ live := [], next := 1 }, ?_⟩
  unfold loadCuePoint init initLoop preload grow
  simp [Mem.alloc, h]

example : ∃ m, loadCuePoint (fun n => n != 0) sample.tail { rest := sample.tail } {} = .ok (false, { rest := [] }, m) :=
  C94_lost _ (by decide) _ _ _

end Verif.Props

/-
The binary search of `Cues::Find`.
-/
import Verif.Model.ParserCues

namespace Verif.Par
open Verif

/-- `count` loaded cue points with times that do not overflow, in ascending order. -/
structure Sorted (scale : Int) (ps : List CuePoint) : Prop where
  loaded : ∀ c ∈ ps, 0 ≤ c.timecode ∧ scale * c.timecode ≤ llongMax
  order : ∀ (i j : Nat) (c d : CuePoint), i ≤ j → ps[i]? = some c → ps[j]? = some d → c.timecode ≤ d.timecode

theorem Sorted.getTime {scale : Int} {ps : List CuePoint} (h : Sorted scale ps) {i : Nat} {c : CuePoint}
    (hc : ps[i]? = some c) : c.getTime scale = .ok (scale * c.timecode) := by
  obtain ⟨h1, h2⟩ := h.loaded c (List.mem_of_getElem? hc)
  unfold CuePoint.getTime
  rw [if_neg (by omega), if_neg (by omega)]

theorem Sorted.le {scale : Int} (hs : 0 ≤ scale) {ps : List CuePoint} (h : Sorted scale ps) {i j : Nat}
    {c d : CuePoint} (hij : i ≤ j) (hc : ps[i]? = some c) (hd : ps[j]? = some d) :
    scale * c.timecode ≤ scale * d.timecode :=
  Int.mul_le_mul_of_nonneg_left (h.order i j c d hij hc hd) hs

theorem findLoop_spec {scale : Int} (hs : 0 ≤ scale) {all ps : List CuePoint}
    (hps : ps = all.take ps.length) (h : Sorted scale ps) (time : Int) :
    ∀ (i j : Nat), i ≤ j → j ≤ ps.length →
      (∀ k c, k < i → ps[k]? = some c → scale * c.timecode ≤ time) →
      (∀ k c, j ≤ k → ps[k]? = some c → time < scale * c.timecode) →
      ∃ m, i ≤ m ∧ m ≤ j ∧ findLoop scale all ps.length time i j = .ok (some (m, m)) ∧
        (∀ k c, k < m → ps[k]? = some c → scale * c.timecode ≤ time) ∧
        (∀ k c, m ≤ k → ps[k]? = some c → time < scale * c.timecode) := by
  have hget : ∀ k, k < ps.length → all[k]? = ps[k]? := by
    intro k hk
    conv => rhs; rw [hps]
    rw [List.getElem?_take_of_lt hk]
  intro i j
  induction hn : j - i using Nat.strongRecOn generalizing i j with
  | _ n ih =>
    intro hij hj hlo hhi
    rw [findLoop.eq_1]
    by_cases hlt : i < j
    · rw [if_pos hlt]
      simp only
      have hk : i + (j - i) / 2 < j := by omega
      rw [if_neg (by omega), hget _ (by omega)]
      obtain ⟨c, hc⟩ : ∃ c, ps[i + (j - i) / 2]? = some c :=
        ⟨_, List.getElem?_eq_getElem (by omega)⟩
      rw [hc]
      simp only
      rw [h.getTime hc]
      simp only
      by_cases ht : scale * c.timecode ≤ time
      · rw [if_pos ht]
        obtain ⟨m, m1, m2, m3, m4, m5⟩ := ih _ (by omega) (i + (j - i) / 2 + 1) j rfl (by omega) hj
          (fun k d hk hd => by
            have := h.le hs (show k ≤ i + (j - i) / 2 by omega) hd hc
            omega) hhi
        exact ⟨m, by omega, m2, m3, m4, m5⟩
      · rw [if_neg ht]
        obtain ⟨m, m1, m2, m3, m4, m5⟩ := ih _ (by omega) i (i + (j - i) / 2) rfl (by omega) (by omega) hlo
          (fun k d hk hd => by
            have := h.le hs hk hc hd
            omega)
        exact ⟨m, m1, by omega, m3, m4, m5⟩
    · rw [if_neg hlt]
      have : i = j := by omega
      subst this
      exact ⟨i, Nat.le_refl _, Nat.le_refl _, rfl, hlo, hhi⟩

end Verif.Par

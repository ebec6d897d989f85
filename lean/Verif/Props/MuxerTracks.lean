/-
C17: numbers of the tracks of a file being written.
-/
import Verif.Model.MuxerTracks

namespace Verif.Props
open Verif.Mux

/-- Numbers of the tracks, in the order they were added. -/
def trackNumbers (t : Tracks) : List Nat := t.entries.map (·.number)

private theorem taken_iff {t : Tracks} {n : Nat} : t.taken n = true ↔ n ∈ trackNumbers t := by
  unfold Tracks.taken trackNumbers
  rw [List.any_eq_true]
  constructor
  · rintro ⟨e, he, h⟩
    exact List.mem_map.mpr ⟨e, he, by simpa using h⟩
  · intro h
    obtain ⟨e, he, rfl⟩ := List.mem_map.mp h
    exact ⟨e, he, by simp⟩

private theorem nextFree_le (t : Tracks) (n k : Nat) : n ≤ t.nextFree n k := by
  induction k generalizing n with
  | zero => exact Nat.le_refl _
  | succ k ih =>
    unfold Tracks.nextFree
    split
    · exact Nat.le_trans (Nat.le_succ n) (ih _)
    · exact Nat.le_refl _

private theorem nextFree_skips (t : Tracks) (n k m : Nat) (h1 : n ≤ m) (h2 : m < t.nextFree n k) :
    m ∈ trackNumbers t := by
  induction k generalizing n with
  | zero => simp [Tracks.nextFree] at h2; omega
  | succ k ih =>
    unfold Tracks.nextFree at h2
    split at h2
    · rename_i ht
      by_cases e : n = m
      · subst e; exact taken_iff.mp ht
      · exact ih _ (by omega) h2
    · omega

/-- Pigeonhole: a list of length `< k` misses one of `k` consecutive numbers. -/
private theorem all_below {l : List Nat} {n k : Nat} (h : ∀ m, n ≤ m → m < n + k → m ∈ l) :
    k ≤ l.length := by
  induction k generalizing l with
  | zero => omega
  | succ k ih =>
    have hm : n + k ∈ l := h _ (by omega) (by omega)
    have : k ≤ (l.erase (n + k)).length := by
      refine ih fun m h1 h2 => ?_
      exact (List.mem_erase_of_ne (by omega)).mpr (h m h1 (by omega))
    rw [List.length_erase_of_mem hm] at this
    have := List.length_pos_of_mem hm
    omega

private theorem nextFree_max (t : Tracks) (n k : Nat) :
    t.taken (t.nextFree n k) = false ∨ t.nextFree n k = n + k := by
  induction k generalizing n with
  | zero => exact .inr rfl
  | succ k ih =>
    unfold Tracks.nextFree
    split
    · rcases ih (n + 1) with h | h
      · exact .inl h
      · exact .inr (by omega)
    · rename_i h; exact .inl (by simpa using h)

private theorem nextFree_free (t : Tracks) (n : Nat) :
    t.nextFree n (t.entries.length + 1) ∉ trackNumbers t := by
  intro hmem
  rcases nextFree_max t n (t.entries.length + 1) with h | h
  · rw [taken_iff.mpr hmem] at h; cases h
  · have := all_below (l := trackNumbers t) (n := n) (k := t.entries.length + 1) fun m h1 h2 =>
      nextFree_skips t n (t.entries.length + 1) m h1 (by omega)
    simp only [trackNumbers, List.length_map] at this
    omega

/-- C17, one request: a negative number, a number above 126, a number already in use or a
request after the track list was written is refused and changes nothing; any other explicit
request is honoured with exactly that number; a request for an automatic number (0) gets the
first unused number from "number of tracks + 1" upwards.  The list only grows at its end. -/
theorem C17_request (t : Tracks) (kind : TrackKind) (number : Int) :
    (number < 0 ∨ 126 < number ∨ t.wroteTracks = true ∨
        (0 < number ∧ number.toNat ∈ trackNumbers t) → t.request kind number = (t, 0)) ∧
    (0 < number → number ≤ 126 → t.wroteTracks = false → number.toNat ∉ trackNumbers t →
      (t.request kind number).2 = number.toNat ∧
      (t.request kind number).1.entries = t.entries ++ [⟨number.toNat, kind⟩]) ∧
    (number = 0 → t.wroteTracks = false → ∃ n, (t.request kind number).2 = n ∧
      (t.request kind number).1.entries = t.entries ++ [⟨n, kind⟩] ∧
      t.entries.length + 1 ≤ n ∧ n ∉ trackNumbers t ∧
      ∀ m, t.entries.length + 1 ≤ m → m < n → m ∈ trackNumbers t) := by
  refine ⟨fun h => ?_, fun h0 h1 hw hn => ?_, fun h0 hw => ?_⟩
  · have : t.addTrack kind number = none := by
      unfold Tracks.addTrack
      rcases h with h | h | h | ⟨h, hm⟩
      · rw [if_pos (.inl h)]
      · by_cases h' : number < 0 ∨ t.wroteTracks = true
        · rw [if_pos h']
        · rw [if_neg h', if_pos (by omega)]
      · rw [if_pos (.inr h)]
      · split
        · rfl
        split
        · rfl
        rw [if_pos ⟨by omega, taken_iff.mpr hm⟩]
    unfold Tracks.request
    rw [this]
  · have : t.addTrack kind number = some { t with entries := t.entries ++ [⟨number.toNat, kind⟩] } := by
      unfold Tracks.addTrack
      rw [if_neg (by simp [hw]; omega), if_neg (by omega), if_neg (by
        rintro ⟨-, h⟩; exact hn (taken_iff.mp h)), if_neg (by omega)]
    unfold Tracks.request
    rw [this]
    simp
  · subst h0
    have : t.addTrack kind 0 = some { t with entries := t.entries ++
        [⟨t.nextFree (t.entries.length + 1) (t.entries.length + 1), kind⟩] } := by
      unfold Tracks.addTrack
      rw [if_neg (by simp [hw]), if_neg (by omega), if_neg (by simp), if_pos (by rfl)]
    refine ⟨_, rfl, ?_⟩
    unfold Tracks.request
    rw [this]
    simp only [List.getLast?_append, List.getLast?_singleton, Option.some_or, Option.map_some,
      Option.getD_some, true_and]
    exact ⟨nextFree_le _ _ _, nextFree_free _ _, fun m h1 h2 => nextFree_skips _ _ _ m h1 h2⟩

private theorem request_cases (t : Tracks) (kind : TrackKind) (number : Int) :
    t.request kind number = (t, 0) ∨ ∃ n, (t.request kind number).2 = n ∧
      (t.request kind number).1 = { t with entries := t.entries ++ [⟨n, kind⟩] } ∧
      n ∉ trackNumbers t ∧ 1 ≤ n ∧ (number ≠ 0 → n ≤ 126) ∧ t.wroteTracks = false := by
  rcases hreq : t.addTrack kind number with _ | t'
  · exact .inl (by unfold Tracks.request; rw [hreq])
  · refine .inr ?_
    have h := hreq
    unfold Tracks.addTrack at h
    split at h
    · cases h
    rename_i h1
    split at h
    · cases h
    rename_i h2
    split at h
    · cases h
    rename_i h3
    simp only [Option.some.injEq] at h
    refine ⟨_, rfl, ?_⟩
    unfold Tracks.request
    rw [hreq, ← h]
    simp only [List.getLast?_append, List.getLast?_singleton, Option.some_or, Option.map_some,
      Option.getD_some, true_and]
    have hw : t.wroteTracks = false := by
      cases hb : t.wroteTracks
      · rfl
      · exact absurd (.inr hb) h1
    by_cases h0 : number.toNat = 0
    · rw [if_pos h0]
      have := nextFree_le t (t.entries.length + 1) (t.entries.length + 1)
      exact ⟨nextFree_free _ _, by omega, fun hne => absurd hne (by omega), hw⟩
    · rw [if_neg h0]
      exact ⟨fun hm => h3 ⟨by omega, taken_iff.mpr hm⟩, by omega, fun _ => by omega, hw⟩

/-- C17: after any history of requests, whatever numbers were asked for and whichever of them
were refused, all track numbers are distinct and at least 1. -/
theorem C17_distinct (reqs : List (TrackKind × Int)) (t : Tracks)
    (hd : (trackNumbers t).Nodup) (hp : ∀ n ∈ trackNumbers t, 1 ≤ n) :
    (trackNumbers (t.addAll reqs)).Nodup ∧ ∀ n ∈ trackNumbers (t.addAll reqs), 1 ≤ n := by
  induction reqs generalizing t with
  | nil => exact ⟨hd, hp⟩
  | cons q reqs ih =>
    obtain ⟨k, n⟩ := q
    show (trackNumbers ((t.request k n).1.addAll reqs)).Nodup ∧ _
    rcases request_cases t k n with h | ⟨m, -, h, hm, h1, -, -⟩
    · refine ih _ ?_ ?_ <;> rw [h] <;> assumption
    · have e : trackNumbers (t.request k n).1 = trackNumbers t ++ [m] := by
        rw [h]; simp [trackNumbers]
      refine ih _ ?_ ?_
      · rw [e]
        refine List.nodup_append.mpr ⟨hd, by simp, fun a ha b hb => ?_⟩
        rintro rfl
        exact hm (by simpa using (List.mem_singleton.mp hb) ▸ ha)
      · intro x hx
        rw [e, List.mem_append, List.mem_singleton] at hx
        rcases hx with hx | rfl
        · exact hp x hx
        · exact h1

/-- C17: earlier tracks keep their number: the list of numbers only grows at its end. -/
theorem C17_stable (reqs : List (TrackKind × Int)) (t : Tracks) :
    trackNumbers t <+: trackNumbers (t.addAll reqs) := by
  induction reqs generalizing t with
  | nil => exact List.prefix_refl _
  | cons q reqs ih =>
    obtain ⟨k, n⟩ := q
    show _ <+: trackNumbers ((t.request k n).1.addAll reqs)
    refine List.IsPrefix.trans ?_ (ih _)
    rcases request_cases t k n with h | ⟨m, -, h, -⟩
    · rw [h]; exact List.prefix_refl _
    · rw [h]; exact ⟨[m], by simp [trackNumbers]⟩

/-- C17, encodable numbers, for explicit requests: if every request names a number, every track
number is at most 126 and so fits the one-byte track field of a block. -/
theorem C17_encodable_partial (reqs : List (TrackKind × Int)) (hreqs : ∀ q ∈ reqs, q.2 ≠ 0) :
    ∀ n ∈ trackNumbers (({} : Tracks).addAll reqs), 1 ≤ n ∧ n ≤ 126 := by
  suffices ∀ t : Tracks, (∀ n ∈ trackNumbers t, 1 ≤ n ∧ n ≤ 126) →
      ∀ n ∈ trackNumbers (t.addAll reqs), 1 ≤ n ∧ n ≤ 126 from this {} (by simp [trackNumbers])
  induction reqs with
  | nil => exact fun t h => h
  | cons q reqs ih =>
    intro t ht
    obtain ⟨k, n⟩ := q
    refine ih (fun q hq => hreqs q (List.mem_cons_of_mem _ hq)) _ ?_
    rcases request_cases t k n with h | ⟨m, -, h, -, h1, h2, -⟩
    · rw [h]; exact ht
    · rw [h]
      intro x hx
      rw [show trackNumbers { t with entries := t.entries ++ [⟨m, k⟩] } = trackNumbers t ++ [m] by
        simp [trackNumbers], List.mem_append, List.mem_singleton] at hx
      rcases hx with hx | rfl
      · exact ht x hx
      · exact ⟨h1, h2 (hreqs _ List.mem_cons_self)⟩

/-- C17, automatic numbers: if every request asks for an automatic number, the tracks are
numbered 1, 2, 3, …; so the numbers are encodable exactly as long as there are at most 126
tracks. -/
theorem C17_automatic (kinds : List TrackKind) :
    trackNumbers (({} : Tracks).addAll (kinds.map fun k => (k, 0))) =
      List.range' 1 kinds.length := by
  suffices ∀ t : Tracks, t.wroteTracks = false → trackNumbers t = List.range' 1 t.entries.length →
      trackNumbers (t.addAll (kinds.map fun k => (k, 0))) =
        List.range' 1 (t.entries.length + kinds.length) by
    simpa using this {} rfl rfl
  induction kinds with
  | nil => intro t _ h; simpa [Tracks.addAll] using h
  | cons k ks ih =>
    intro t hw h
    obtain ⟨n, -, he, h1, h2, h3⟩ := (C17_request t k 0).2.2 rfl hw
    have hn : n = t.entries.length + 1 := by
      rcases Nat.lt_or_ge (t.entries.length + 1) n with hlt | hge
      · have := h3 (t.entries.length + 1) (Nat.le_refl _) hlt
        rw [h, List.mem_range'_1] at this
        omega
      · omega
    subst hn
    have hw' : (t.request k 0).1.wroteTracks = false := by
      rcases request_cases t k 0 with h | ⟨m, -, h, -⟩ <;> rw [h] <;> exact hw
    have := ih (t.request k 0).1 hw' (by
      unfold trackNumbers at h ⊢
      rw [he]
      simp only [List.map_append, List.length_append, List.map_cons, List.map_nil,
        List.length_cons, List.length_nil]
      rw [h, List.range'_concat]
      simp [Nat.add_comm])
    show trackNumbers ((t.request k 0).1.addAll _) = _
    rw [this, he]
    simp only [List.length_append, List.length_cons, List.length_nil]
    congr 1
    omega

/-- C17, automatic numbers next to explicit ones: the automatic number is encodable whenever there
are fewer than 126 tracks and none of them has number 126. -/
theorem C17_automatic_encodable (t : Tracks) (kind : TrackKind) (hw : t.wroteTracks = false)
    (hlen : t.entries.length < 126) (hmax : 126 ∉ trackNumbers t) :
    1 ≤ (t.request kind 0).2 ∧ (t.request kind 0).2 ≤ 126 := by
  obtain ⟨n, hn, -, h1, -, h3⟩ := (C17_request t kind 0).2.2 rfl hw
  rw [hn]
  refine ⟨by omega, ?_⟩
  rcases Nat.lt_or_ge 126 n with h | h
  · exact absurd (h3 126 (by omega) h) hmax
  · exact h

/-- C17 is false beyond that: the 127th automatic track is accepted with number 127, which does
not fit the one-byte track field of a block (`Frame::IsValid` refuses every frame for it). -/
theorem C17_automatic_too_many (kinds : List TrackKind) (h : 126 < kinds.length) :
    ∃ n ∈ trackNumbers (({} : Tracks).addAll (kinds.map fun k => (k, 0))), 126 < n := by
  refine ⟨kinds.length, ?_, h⟩
  rw [C17_automatic, List.mem_range'_1]
  omega

/-- C17 is also false with numbers to spare: with tracks 1 to 124 and 126, number 125 is unused,
yet the next automatic track gets number 127.  (The comment in the code promises the lowest
available number.) -/
theorem C17_skips_free_numbers :
    trackNumbers ((({ entries := [⟨2, .video⟩] } : Tracks).request .audio 0).1) = [2, 3] ∧
    (({ entries := (List.range' 1 124).map (⟨·, .audio⟩) ++ [⟨126, .audio⟩] } : Tracks).request
      .audio 0).2 = 127 := by
  decide +kernel

/-- Non-vacuity: a history with explicit, automatic, duplicate and out-of-range requests. -/
example : trackNumbers (({} : Tracks).addAll
    [(.video, 0), (.audio, 7), (.audio, 7), (.audio, 127), (.other, -1), (.audio, 0), (.audio, 4), (.other, 0)]) =
    [1, 7, 3, 4, 5] := by decide
example : (({} : Tracks).request .video 126).2 = 126 := by decide
example : ({ entries := [⟨5, .video⟩] } : Tracks).request .video 5 =
    ({ entries := [⟨5, .video⟩] }, 0) := by decide

end Verif.Props

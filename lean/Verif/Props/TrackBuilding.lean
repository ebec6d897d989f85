/-
C89: setting up a track.
-/
import Verif.Lemmas.MuxerTrackBuild

namespace Verif.Props
open Verif Verif.Mux Verif.Mux.Build Spec

/-- A new track, and no other memory. -/
private theorem fresh : Holds {} fun a => (ownA {}).count a := fun _ => rfl

/-- **C89, what is set is what is shown.**  Any series of calls on a new track, with memory enough: none is undefined, and the answers and
what the getters show are right. -/
theorem C89_set {can : Nat → Bool} (hc : Enough can) (cs : List TrackCall) :
    ∃ t m, runTrack can cs {} {} = .ok (rightAnswers {} cs, t, m) ∧ ownedShown t = cs.foldl trackAfter {} := by
  obtain ⟨oks, t, m, h1, -, -, -, h2⟩ := run_ok (can := can) cs fresh
  obtain ⟨h2, h3⟩ := h2 hc
  exact ⟨t, m, by rw [← show rightAnswers (ownedShown {}) cs = rightAnswers {} cs from rfl, ← h2]; exact h1, h3⟩

/-- **C89, memory may be short.**  Any series of calls on a new track, whichever allocations fail: none is undefined, and what the getters
show has changed with every call as its answer allows. -/
theorem C89_short (can : Nat → Bool) (cs : List TrackCall) :
    ∃ oks t m, runTrack can cs {} {} = .ok (oks, t, m) ∧ oks.length = cs.length ∧ AllowedAll {} (cs.zip oks) (ownedShown t) := by
  obtain ⟨oks, t, m, h1, h2, -, h3, -⟩ := run_ok (can := can) cs fresh
  exact ⟨oks, t, m, h1, h2, h3⟩

private theorem only_one {l : List Nat} {p : Option Nat} (h : ∀ a, l.count a = p.toList.count a) : l = p.toList := by
  have h := List.perm_iff_count.mpr h
  cases p with
  | none => exact List.perm_nil.mp h
  | some a => exact List.perm_singleton.mp h

/-- **C89, memory is given back, partial.**  Whichever allocations fail, destroying the track after any series of calls frees nothing
twice, and everything except the colour space.  What is missing: see `C89_colour_space_leaks`. -/
theorem C89_freed_partial (can : Nat → Bool) (cs : List TrackCall) :
    ∃ oks t m m', runTrack can cs {} {} = .ok (oks, t, m) ∧ t.destroy m = .ok m' ∧
      m'.live = (t.colourSpace.map (·.1)).toList := by
  obtain ⟨oks, t, m, h1, -, h2, -, -⟩ := run_ok (can := can) cs fresh
  obtain ⟨m', h3, h4⟩ := track_destroy h2
  exact ⟨oks, t, m, m', h1, h3, only_one h4⟩

private theorem allowed_space {v w : TrackLook} {c : TrackCall} {ok : Bool} (h : Allowed v c ok w) (hc : ∀ s, c ≠ .colourSpace s) :
    w.colourSpace = v.colourSpace := by
  cases c with
  | colourSpace s => exact absurd rfl (hc s)
  | codecId s =>
    rcases h with rfl | ⟨-, rfl⟩
    · simp only [trackAfter]; split <;> rfl
    · rfl
  | language s =>
    rcases h with rfl | ⟨-, rfl⟩
    · simp only [trackAfter]; split <;> rfl
    · rfl
  | name s =>
    rcases h with rfl | ⟨-, rfl⟩
    · simp only [trackAfter]; split <;> rfl
    · rfl
  | codecPrivate b =>
    cases ok with
    | true => obtain ⟨-, rfl⟩ := h; simp only [trackAfter]; split <;> rfl
    | false => have h : w = if usable b then { v with codecPrivate := none } else v := h; rw [h]; split <;> rfl
  | colour c =>
    cases ok with
    | true => obtain ⟨_, -, rfl⟩ := h; rfl
    | false => have h : w = v := h; rw [h]
  | projection p =>
    cases ok with
    | true => obtain ⟨-, rfl⟩ := h; simp only [trackAfter]; split <;> rfl
    | false => have h : w = v := h; rw [h]
  | addEncoding => have h : w = if ok then trackAfter v .addEncoding else v := h; rw [h]; split <;> rfl
  | keyId i b =>
    cases ok with
    | true => obtain ⟨-, -, rfl⟩ := h; simp only [trackAfter]; split <;> rfl
    | false => have h : w = if usable b then { v with keyIds := v.keyIds.set i none } else v := h; rw [h]; split <;> rfl

private theorem allowed_spaces : ∀ {cs : List (TrackCall × Bool)} {v w : TrackLook}, AllowedAll v cs w →
    (∀ x ∈ cs, ∀ s, x.1 ≠ .colourSpace s) → w.colourSpace = v.colourSpace := by
  intro cs
  induction cs with
  | nil => intro v w h _; rw [show w = v from h]
  | cons x cs ih =>
    intro v w h hc
    obtain ⟨u, h1, h2⟩ := h
    rw [ih h2 fun y hy => hc y (List.mem_cons_of_mem _ hy), allowed_space h1 (hc x (List.mem_cons_self ..))]

/-- **C89, memory is given back.**  If no colour space is set, destroying the track leaves nothing, whichever allocations fail. -/
theorem C89_freed (can : Nat → Bool) {cs : List TrackCall} (hcs : ∀ s, .colourSpace s ∉ cs) :
    ∃ oks t m m', runTrack can cs {} {} = .ok (oks, t, m) ∧ t.destroy m = .ok m' ∧ m'.live = [] := by
  obtain ⟨oks, t, m, h1, -, h2, h3, -⟩ := run_ok (can := can) cs fresh
  obtain ⟨m', h4, h5⟩ := track_destroy h2
  refine ⟨oks, t, m, m', h1, h4, ?_⟩
  have hs := allowed_spaces h3 fun x hx s e => hcs s (e ▸ (List.of_mem_zip hx).1)
  have hn : t.colourSpace = none := by
    have : t.colourSpace.map (·.2) = none := hs
    simpa using this
  have := only_one (p := none) (l := m'.live) (fun a => by rw [h5 a, hn]; rfl)
  exact this

/-! ### Consequences -/

/-- **The last one set counts.**  With memory enough, a name that was set is shown until another one is. -/
theorem C89_last {can : Nat → Bool} (hc : Enough can) (before after : List TrackCall) (b : Bytes)
    (ha : ∀ s, .name s ∈ after → s = none) :
    ∃ oks t m, runTrack can (before ++ .name (some b) :: after) {} {} = .ok (oks, t, m) ∧ (ownedShown t).name = some b := by
  obtain ⟨t, m, h1, h2⟩ := C89_set hc (before ++ .name (some b) :: after)
  refine ⟨_, t, m, h1, ?_⟩
  rw [h2, List.foldl_append, List.foldl_cons]
  have keep : ∀ (cs : List TrackCall) (v : TrackLook), (∀ s, .name s ∈ cs → s = none) → (cs.foldl trackAfter v).name = v.name := by
    intro cs
    induction cs with
    | nil => intro v _; rfl
    | cons c cs ih =>
      intro v hv
      rw [List.foldl_cons, ih _ fun s hs => hv s (List.mem_cons_of_mem _ hs)]
      cases c with
      | name s => rw [hv s (List.mem_cons_self ..)]; rfl
      | colour c => rfl
      | addEncoding => rfl
      | codecId s => simp only [trackAfter]; split <;> rfl
      | language s => simp only [trackAfter]; split <;> rfl
      | colourSpace s => simp only [trackAfter]; split <;> rfl
      | codecPrivate s => simp only [trackAfter]; split <;> rfl
      | projection s => simp only [trackAfter]; split <;> rfl
      | keyId i s => simp only [trackAfter]; split <;> rfl
  rw [keep after _ ha]
  rfl

/-- **A colour that could not be set leaves the old one**, and so do a projection and a content encoding. -/
theorem C89_kept {v w : TrackLook} {c : TrackCall} (h : Allowed v c false w)
    (hc : (∃ x, c = .colour x) ∨ (∃ p, c = .projection p) ∨ c = .addEncoding) : w = v := by
  rcases hc with ⟨x, rfl⟩ | ⟨p, rfl⟩ | rfl
  · exact h
  · exact h
  · exact h

/-! ### What goes wrong -/

/-- What is shown and what is left after a history and destroying the track: the answers, what was shown, and how many allocations
are left. -/
def trackOutcome (can : Nat → Bool) (cs : List TrackCall) : Option (List Bool × TrackLook × Nat) :=
  match runTrack can cs {} {} with
  | .ok (oks, t, m) =>
    match t.destroy m with
    | .ok m => some (oks, ownedShown t, m.live.length)
    | _ => none
  | _ => none

/-- Everything succeeds. -/
def always : Nat → Bool := fun _ => true

/-- Only allocation number `n` fails. -/
def butFor (n : Nat) : Nat → Bool := fun k => k != n

/-- **The colour space is never deleted**, unless another one is set. -/
theorem C89_colour_space_leaks :
    trackOutcome always [.colourSpace (some [1]), .colourSpace (some [2])] = some ([true, true], { colourSpace := some [2] }, 1) := by
  decide +kernel

/-- **A name that cannot be copied takes the old one with it, and nobody is told.** -/
theorem C89_name_lost :
    trackOutcome (butFor 1) [.name (some [1]), .name (some [2])] = some ([true, true], {}, 0) := by decide +kernel

/-- **Codec private data that cannot be copied takes the old data with it**; the call says that it failed. -/
theorem C89_private_lost :
    trackOutcome (butFor 1) [.codecPrivate (some [1]), .codecPrivate (some [2])] = some ([true, false], {}, 0) := by decide +kernel

/-- Mastering metadata with one chromaticity. -/
def redOnly : Colour := { range := 1, mastering := some { luminanceMax := 0x447A0000, r := some ⟨0x3F000000, 0x3E800000⟩ } }

/-- **`SetColour` succeeds and loses a chromaticity** when there is no memory for it: `CopyChromaticity` looks at the wrong pointer. -/
theorem C89_chromaticity_lost :
    trackOutcome (butFor 2) [.colour redOnly] =
      some ([true], { colour := some { redOnly with mastering := some { luminanceMax := 0x447A0000 } } }, 0) := by decide +kernel

/-- **`SetChromaticity` on the same object again leaks what was there**: of two chromaticities set one after the other, one is left when
the object has been destroyed. -/
theorem C89_chromaticity_leaks :
    (let (x, m) := HeapMM.setChromaticity always (some ⟨0, 0⟩) none none none {} {}
     let (x, m) := x.setChromaticity always (some ⟨0, 0x3F000000⟩) none none none m
     match x.destroy m with
     | .ok m => m.live.length
     | _ => 0) = 1 := by decide +kernel

/-! ### Non-vacuity -/

/-- A whole track. -/
def setUp : List TrackCall :=
  [.codecId (some [0x56]), .name (some [1]), .name none, .language (some [2]), .codecPrivate (some [3]), .codecPrivate (some []),
    .colour redOnly, .colour { range := 2 }, .colour redOnly, .projection { type := 1, privateData := some [4] },
    .projection { type := 2 }, .addEncoding, .addEncoding, .keyId 1 (some [5]), .keyId 2 (some [6])]

/-- It is set up and destroyed, with nothing left. -/
example : trackOutcome always setUp =
    some ([true, true, true, true, true, false, true, true, true, true, true, true, true, true, false],
      { codecId := some [0x56], name := some [1], language := some [2], codecPrivate := some [3], colour := some redOnly,
        projection := some { type := 2 }, keyIds := [none, some [5]] }, 0) := by decide +kernel

example : ∃ t m, runTrack always setUp {} {} = .ok (rightAnswers {} setUp, t, m) ∧ ownedShown t = setUp.foldl trackAfter {} :=
  C89_set (fun _ => rfl) setUp

/-- A second colour that cannot be set. -/
example : trackOutcome (butFor 4) [.colour redOnly, .colour redOnly] = some ([true, false], { colour := some redOnly }, 0) := by
  decide +kernel

example : ∃ oks t m m', runTrack (butFor 4) setUp {} {} = .ok (oks, t, m) ∧ t.destroy m = .ok m' ∧ m'.live = [] :=
  C89_freed (butFor 4) (by intro s h; simp [setUp] at h)

end Verif.Props

/-
Lemmas on the memory of the headers of a segment.
-/
import Verif.Lemmas.ParserTrackMem
import Verif.Spec.HeadersMem

namespace Verif.Par.HdrMem
open Verif Verif.Spec Verif.Par.TrackMem Verif.Par.Enc Verif.Par.Texts Verif.Mux.Build

def seekA (x : SeekMem) : List Nat := x.entries.toList ++ x.voids.toList

theorem fillSeek_spec {ne nv : Nat} : ∀ {ps : List SeekPart} {es vs : List (Nat × Nat)}, es.length + ps.countP isSeek ≤ ne →
    vs.length + ps.countP isVoid ≤ nv → fillSeek ne nv ps es vs = .ok (es ++ (seekSaid ps).1, vs ++ (seekSaid ps).2)
  | [], es, vs, _, _ => by simp [fillSeek, seekSaid]
  | .seek v :: ps, es, vs, h1, h2 => by
    simp only [List.countP_cons, isSeek, isVoid] at h1 h2
    unfold fillSeek
    rw [if_pos (by simp at h1; omega), fillSeek_spec (by cases v <;> simp at h1 ⊢ <;> omega) (by simpa using h2)]
    cases v <;> simp [seekSaid]
  | .void v :: ps, es, vs, h1, h2 => by
    simp only [List.countP_cons, isSeek, isVoid] at h1 h2
    unfold fillSeek
    rw [if_pos (by simp at h2; omega), fillSeek_spec (by simpa using h1) (by simp at h2 ⊢; omega)]
    simp [seekSaid]
  | .other :: ps, es, vs, h1, h2 => by
    simp only [List.countP_cons, isSeek, isVoid] at h1 h2
    unfold fillSeek
    rw [fillSeek_spec (by simpa using h1) (by simpa using h2)]
    simp [seekSaid]
  | .bad :: ps, es, vs, h1, h2 => by
    simp only [List.countP_cons, isSeek, isVoid] at h1 h2
    unfold fillSeek
    rw [fillSeek_spec (by simpa using h1) (by simpa using h2)]
    simp [seekSaid]

theorem newArray_spec {can : Nat → Bool} {n : Nat} {m m' : Mem} {b : Bool} {p : Option Nat} {f : Nat → Nat} (h : Holds m f)
    (e : newArray can n m = (b, p, m')) : Holds m' (fun a => p.toList.count a + f a) ∧ (b = false → p = none) ∧ (b = true → roomOf p n = n) := by
  unfold newArray at e
  split at e
  · rename_i hn
    cases e
    exact ⟨h.of fun a => by simp, fun _ => rfl, fun _ => by simp [roomOf, hn]⟩
  · cases ea : m.alloc can with
    | mk r m1 =>
      have h1 := alloc_spec h ea
      rw [ea] at e
      cases r with
      | none => cases e; exact ⟨h1, fun _ => rfl, fun h => (by cases h)⟩
      | some a => cases e; exact ⟨h1, fun h => (by cases h), fun _ => rfl⟩

theorem parseSeek_spec (can : Nat → Bool) (ps : List SeekPart) {m : Mem} {f : Nat → Nat} (h : Holds m f) :
    ∃ st x m', parseSeek can ps m = .ok (st, x, m') ∧ Holds m' (fun a => (seekA x).count a + f a) ∧ (st = 0 → (x.es, x.vs) = seekSaid ps) := by
  unfold parseSeek
  split
  · exact ⟨-2, {}, m, rfl, h.of fun a => by simp [seekA], fun h => (by cases h)⟩
  · cases e1 : newArray can (ps.countP isSeek) m with
    | mk b r =>
      obtain ⟨p, m1⟩ := r
      obtain ⟨h1, n1, r1⟩ := newArray_spec h e1
      cases b with
      | false =>
        have := n1 rfl
        subst this
        exact ⟨-1, {}, m1, rfl, h1.of fun a => by simp [seekA], fun h => (by cases h)⟩
      | true =>
        cases e2 : newArray can (ps.countP isVoid) m1 with
        | mk b r =>
          obtain ⟨q, m2⟩ := r
          obtain ⟨h2, n2, r2⟩ := newArray_spec h1 e2
          cases b with
          | false =>
            have := n2 rfl
            subst this
            refine ⟨-1, { entries := p }, m2, ?_, h2.of fun a => (by simp [seekA]), fun h => (by cases h)⟩
            simp only [e2]
          | true =>
            refine ⟨0, ⟨p, q, (seekSaid ps).1, (seekSaid ps).2⟩, m2, ?_, h2.of fun a => ?_, fun _ => rfl⟩
            · simp only [e2]
              rw [r1 rfl, r2 rfl, fillSeek_spec (by simp) (by simp)]
              rfl
            · simp only [seekA, List.count_append]
              omega

theorem seek_frees : Frees seekA SeekMem.destroy := by
  intro x m f h
  obtain ⟨m1, e1, h1⟩ := free_spec (p := x.entries) (f := fun a => x.voids.toList.count a + f a)
    (h.of fun a => by simp only [seekA, List.count_append]; omega)
  obtain ⟨m2, e2, h2⟩ := free_spec h1
  refine ⟨m2, ?_, h2⟩
  unfold SeekMem.destroy
  rw [e1, Res.bind_ok, e2]

theorem tags_frees : Frees (arrA (arrA threeA)) destroyTags := fun _ _ _ h =>
  arrClear_spec (clear := Arr.clear Three.clear) (fun _ _ _ _ h => arrClear_spec (fun w _ => three_clear w) h) h

theorem chapters_frees : Frees (arrA (arrA atomA)) destroyChapters := fun _ _ _ h =>
  arrClear_spec (clear := Arr.clear AtomMem.clear) (fun _ _ _ _ h => arrClear_spec (fun w _ => atom_clear w) h) h

def TracksFine (x : Ptrs TrackObj) : Prop := x.Ends ∧ ∀ p ∈ x.items, p.2.Fine

/-- The tracks of the segment, if there are any, are in order. -/
def Hdr.Fine (x : Hdr) : Prop := ∀ p ∈ x.tracks, TracksFine p.2

def hdrA (x : Hdr) : List Nat :=
  delA (ptrsA trackA) x.tracks ++ delA threeA x.info ++ delA (fun _ => []) x.cues ++ delA (arrA (arrA atomA)) x.chapters ++
    delA (arrA (arrA threeA)) x.tags ++ delA seekA x.seek

theorem deleteTracks_spec {p : Option (Nat × Ptrs TrackObj)} {m : Mem} {f : Nat → Nat} (hp : ∀ q ∈ p, TracksFine q.2)
    (h : Holds m fun a => (delA (ptrsA trackA) p).count a + f a) : ∃ m', deleteObj destroyTracks p m = .ok m' ∧ Holds m' f := by
  cases p with
  | none => exact ⟨m, rfl, h.of fun a => by simp [delA]⟩
  | some p =>
    obtain ⟨b, x⟩ := p
    obtain ⟨hx, hi⟩ := hp _ rfl
    obtain ⟨m1, e1, h1⟩ := ptrs_delete (P := TrackObj.Fine) track_frees (f := fun a => [b].count a + f a) hx hi (h.of fun a => by
      simp only [delA, List.count_cons, List.count_nil]; omega)
    obtain ⟨m2, e2, h2⟩ := free_spec (p := some b) h1
    refine ⟨m2, ?_, h2⟩
    show (destroyTracks x m >>= fun m => m.free (some b)) = _
    rw [show destroyTracks x m = .ok m1 from e1, Res.bind_ok, e2]

theorem destroy_spec {x : Hdr} {m : Mem} {f : Nat → Nat} (hx : x.Fine) (h : Holds m fun a => (hdrA x).count a + f a) :
    ∃ m', x.destroy m = .ok m' ∧ Holds m' f := by
  obtain ⟨m1, e1, h1⟩ := deleteTracks_spec (f := fun a => (delA threeA x.info).count a + ((delA (fun _ => []) x.cues).count a +
    ((delA (arrA (arrA atomA)) x.chapters).count a + ((delA (arrA (arrA threeA)) x.tags).count a + ((delA seekA x.seek).count a + f a)))))
    hx (h.of fun a => by simp only [hdrA, List.count_append]; omega)
  obtain ⟨m2, e2, h2⟩ := deleteObj_spec (destroy := Three.clear) three_clear h1
  obtain ⟨m3, e3, h3⟩ := deleteObj_spec (destroy := fun _ m => .ok m) (fun _ m _ h => ⟨m, rfl, h.of fun a => by simp⟩) h2
  obtain ⟨m4, e4, h4⟩ := deleteObj_spec chapters_frees h3
  obtain ⟨m5, e5, h5⟩ := deleteObj_spec tags_frees h4
  obtain ⟨m6, e6, h6⟩ := deleteObj_spec seek_frees h5
  refine ⟨m6, ?_, h6⟩
  unfold Hdr.destroy
  rw [e1, Res.bind_ok, e2, Res.bind_ok, e3, Res.bind_ok, e4, Res.bind_ok, e5, Res.bind_ok, e6]

theorem newObj_spec {α β : Type} {g : α → List Nat} {can : Nat → Bool} {parse : Mem → Res (Int × α × Mem)} {P : α → Prop} {NP : Prop}
    {sh : α → β} {said : β} (hp : ∀ m f, Holds m f → ∃ st v m', parse m = .ok (st, v, m') ∧ P v ∧
      Holds m' (fun a => (g v).count a + f a) ∧ (NP → st = 0 → sh v = said)) {m : Mem} {f : Nat → Nat} (h : Holds m f) :
    ∃ st p m', newObj can parse m = .ok (st, p, m') ∧ (∀ q ∈ p, P q.2) ∧ Holds m' (fun a => (delA g p).count a + f a) ∧
      (st = 0 → p.isSome ∧ (NP → p.map (fun q => sh q.2) = some said)) := by
  unfold newObj
  cases ea : m.alloc can with
  | mk r m1 =>
    have h1 := alloc_spec h ea
    cases r with
    | none => exact ⟨-1, none, m1, rfl, fun _ hq => (by cases hq), h1.of fun a => by simp [delA], fun h => (by cases h)⟩
    | some b =>
      obtain ⟨st, v, m2, e, hv, h2, hs⟩ := hp m1 _ h1
      refine ⟨st, some (b, v), m2, ?_, fun q hq => (by cases hq; exact hv), h2.of fun a => ?_, fun hz => ⟨rfl, fun hn => ?_⟩⟩
      · simp only [e]
        rfl
      · simp only [delA, List.count_cons, Option.toList_some, List.count_nil]
        omega
      · simp [hs hn hz]

/-- What is proved of a call. -/
def Called (can : Nat → Bool) (es : List HdrPart) (x : Hdr) (m : Mem) (f : Nat → Nat) : Prop :=
  ∃ st x' rest m', parseHeaders can es x m = .ok (st, x', rest, m') ∧ x'.Fine ∧ Holds m' (fun a => (hdrA x').count a + f a) ∧
    (∃ done, es = done ++ rest) ∧
    (st = 0 → (∀ e ∈ es, HdrPart.NoPositive e) → rest = [] ∧ x'.info.isSome ∧ x'.tracks.isSome ∧ hdrShown x' = hdrSaid (hdrShown x) es)

theorem Called.next {can : Nat → Bool} {e : HdrPart} {es : List HdrPart} {x y : Hdr} {m m1 : Mem} {f : Nat → Nat} (h : Called can es y m1 f)
    (he : parseHeaders can (e :: es) x m = parseHeaders can es y m1)
    (hs : HdrPart.NoPositive e → hdrSaid (hdrShown x) (e :: es) = hdrSaid (hdrShown y) es) : Called can (e :: es) x m f := by
  obtain ⟨st, x', rest, m', e1, h1, h2, ⟨d, hd⟩, h3⟩ := h
  refine ⟨st, x', rest, m', he.trans e1, h1, h2, ⟨e :: d, by rw [hd]; rfl⟩, fun hz hn => ?_⟩
  rw [hs (hn e (by simp))]
  exact h3 hz fun e he => hn e (by simp [he])

theorem Called.stop {can : Nat → Bool} {e : HdrPart} {es : List HdrPart} {x y : Hdr} {m m1 : Mem} {f : Nat → Nat} {st : Int}
    (he : parseHeaders can (e :: es) x m = .ok (st, y, e :: es, m1)) (hy : y.Fine) (h : Holds m1 fun a => (hdrA y).count a + f a)
    (hst : HdrPart.NoPositive e → st ≠ 0) : Called can (e :: es) x m f :=
  ⟨st, y, e :: es, m1, he, hy, h, ⟨[], rfl⟩, fun hz hn => absurd hz (hst (hn e (by simp)))⟩

theorem parseHeaders_spec {can : Nat → Bool} : ∀ {es : List HdrPart} {x : Hdr} {m : Mem} {f : Nat → Nat}, (∀ e ∈ es, HdrPart.Usual e) →
    x.Fine → Holds m (fun a => (hdrA x).count a + f a) → Called can es x m f
  | [], x, m, f, _, hx, h => by
    refine ⟨_, x, [], m, rfl, hx, h, ⟨[], rfl⟩, fun hz _ => ?_⟩
    cases hi : x.info with
    | none => rw [hi] at hz; cases hz
    | some i =>
      cases ht : x.tracks with
      | none => rw [hi, ht] at hz; cases hz
      | some t => exact ⟨rfl, rfl, rfl, rfl⟩
  | .other :: es, x, m, f, hu, hx, h =>
    Called.next (parseHeaders_spec (fun e he => hu e (by simp [he])) hx h) rfl fun _ => rfl
  | .bad st :: es, x, m, f, hu, hx, h => Called.stop (y := x) rfl hx h fun h => h
  | .info ps :: es, x, m, f, hu, hx, h => by
    cases hi : x.info with
    | some i => exact Called.stop (y := x) (st := -2) (by rw [parseHeaders, hi]; rfl) hx h fun _ => by decide
    | none =>
      obtain ⟨st, p, m1, e, -, h1, hs⟩ := newObj_spec (can := can) (P := fun _ => True) (g := threeA) (sh := threeShown) (said := threeSaid ps)
        (NP := ∀ p ∈ ps, LeafPart.NoPositive p) (parse := parseTexts can ps {}) (fun m f h => by
          obtain ⟨st, v, m', e, h', hd⟩ := parseLeaf_spec can ps m f h
          exact ⟨st, v, m', e, trivial, h', fun hn => (hd hn).2⟩) h
      have h1 : Holds m1 fun a => (hdrA { x with info := p }).count a + f a := h1.of fun a => by
        simp only [hdrA, hi, delA, List.count_append, List.count_nil]; omega
      by_cases hz : st = 0
      · refine Called.next (parseHeaders_spec (fun e he => hu e (by simp [he])) (x := { x with info := p }) hx h1) ?_ fun hn => ?_
        · rw [parseHeaders, hi, e]; simp [hz, Res.bind_ok]
        · have := (hs hz).2 hn
          simp only [hdrSaid, hdrShown, hi, this]; rfl
      · refine Called.stop (y := { x with info := p }) (st := st) ?_ hx h1 fun _ => hz
        rw [parseHeaders, hi, e]; simp [hz, Res.bind_ok]
  | .tracks ts :: es, x, m, f, hu, hx, h => by
    cases hi : x.tracks with
    | some i => exact Called.stop (y := x) (st := -2) (by rw [parseHeaders, hi]; rfl) hx h fun _ => by decide
    | none =>
      have hb : TracksNotBoth ts := hu (.tracks ts) (by simp)
      obtain ⟨st, p, m1, e, hp, h1, hs⟩ := newObj_spec (can := can) (P := TracksFine) (g := ptrsA trackA)
        (sh := fun x : Ptrs TrackObj => x.items.map (trackTexts ·.2)) (said := (kids ts).map trackSaid)
        (NP := True) (parse := fun m => parseTracks can ts m) (fun m f h => by
          obtain ⟨st, v, m', e, a1, a2, a3, -, -, a4⟩ := parseTracks_at (can := can) (fun ps hp e he => harmless_of_notBoth (hb ps hp e he)) h
          exact ⟨st, v, m', e, ⟨a1, a2⟩, a3, fun _ => a4⟩) h
      have h1 : Holds m1 fun a => (hdrA { x with tracks := p }).count a + f a := h1.of fun a => by
        simp only [hdrA, hi, delA, List.count_append, List.count_nil]; omega
      by_cases hz : st = 0
      · refine Called.next (parseHeaders_spec (fun e he => hu e (by simp [he])) (x := { x with tracks := p }) hp h1) ?_ fun hn => ?_
        · rw [parseHeaders, hi, e]; simp [hz, Res.bind_ok]
        · have := (hs hz).2 trivial
          simp only [hdrSaid, hdrShown, hi, this]; rfl
      · refine Called.stop (y := { x with tracks := p }) (st := st) ?_ hp h1 fun _ => hz
        rw [parseHeaders, hi, e]; simp [hz, Res.bind_ok]
  | .cues :: es, x, m, f, hu, hx, h => by
    cases hi : x.cues with
    | some i =>
      refine Called.next (parseHeaders_spec (fun e he => hu e (by simp [he])) hx h) (by rw [parseHeaders, hi]; rfl) fun _ => ?_
      simp only [hdrSaid, hdrShown, hi]; rfl
    | none =>
      obtain ⟨st, p, m1, e, hp, h1, hs⟩ := newObj_spec (can := can) (P := fun _ => True) (g := fun _ : Unit => [])
        (sh := fun _ => ()) (said := ()) (NP := True) (parse := fun m => .ok (0, (), m)) (fun m f h =>
          ⟨0, (), m, rfl, trivial, h.of fun a => by simp, fun _ _ => rfl⟩) h
      have h1 : Holds m1 fun a => (hdrA { x with cues := p }).count a + f a := h1.of fun a => by
        simp only [hdrA, hi, delA, List.count_append, List.count_nil]; omega
      by_cases hz : st = 0
      · refine Called.next (parseHeaders_spec (fun e he => hu e (by simp [he])) (x := { x with cues := p }) hx h1) ?_ fun hn => ?_
        · rw [parseHeaders, hi, e]; simp [hz, Res.bind_ok]
        · have := (hs hz).1
          simp only [hdrSaid, hdrShown, this]
      · refine Called.stop (y := { x with cues := p }) (st := st) ?_ hx h1 fun _ => hz
        rw [parseHeaders, hi, e]; simp [hz, Res.bind_ok]
  | .seek ps :: es, x, m, f, hu, hx, h => by
    cases hi : x.seek with
    | some i =>
      refine Called.next (parseHeaders_spec (fun e he => hu e (by simp [he])) hx h) (by rw [parseHeaders, hi]; rfl) fun _ => ?_
      simp only [hdrSaid, hdrShown, hi]; rfl
    | none =>
      obtain ⟨st, p, m1, e, hp, h1, hs⟩ := newObj_spec (can := can) (P := fun _ => True) (g := seekA)
        (sh := fun x : SeekMem => (x.es, x.vs)) (said := seekSaid ps) (NP := True) (parse := parseSeek can ps) (fun m f h => by
          obtain ⟨st, v, m', e, h', hd⟩ := parseSeek_spec can ps h
          exact ⟨st, v, m', e, trivial, h', fun _ => hd⟩) h
      have h1 : Holds m1 fun a => (hdrA { x with seek := p }).count a + f a := h1.of fun a => by
        simp only [hdrA, hi, delA, List.count_append, List.count_nil]; omega
      by_cases hz : st = 0
      · refine Called.next (parseHeaders_spec (fun e he => hu e (by simp [he])) (x := { x with seek := p }) hx h1) ?_ fun hn => ?_
        · rw [parseHeaders, hi, e]; simp [hz, Res.bind_ok]
        · have := (hs hz).2 trivial
          simp only [hdrSaid, hdrShown, hi, this]; rfl
      · refine Called.stop (y := { x with seek := p }) (st := st) ?_ hx h1 fun _ => hz
        rw [parseHeaders, hi, e]; simp [hz, Res.bind_ok]
  | .chapters cs :: es, x, m, f, hu, hx, h => by
    cases hi : x.chapters with
    | some i =>
      refine Called.next (parseHeaders_spec (fun e he => hu e (by simp [he])) hx h) (by rw [parseHeaders, hi]; rfl) fun _ => ?_
      simp only [hdrSaid, hdrShown, hi]; rfl
    | none =>
      have hb : ChaptersSmall cs := hu (.chapters cs) (by simp)
      obtain ⟨st, p, m1, e, hp, h1, hs⟩ := newObj_spec (can := can) (P := fun _ => True) (g := arrA (arrA atomA))
        (sh := chaptersShown) (said := chaptersSaid cs) (NP := ChaptersNoPositive cs) (parse := fun m => parseChapters can cs m) (fun m f h => by
          obtain ⟨st, v, m', e, h', hd⟩ := parseChapters_at can hb h
          exact ⟨st, v, m', e, trivial, h', fun hn => (hd hn).2⟩) h
      have h1 : Holds m1 fun a => (hdrA { x with chapters := p }).count a + f a := h1.of fun a => by
        simp only [hdrA, hi, delA, List.count_append, List.count_nil]; omega
      by_cases hz : st = 0
      · refine Called.next (parseHeaders_spec (fun e he => hu e (by simp [he])) (x := { x with chapters := p }) hx h1) ?_ fun hn => ?_
        · rw [parseHeaders, hi, e]; simp [hz, Res.bind_ok]
        · have := (hs hz).2 hn
          simp only [hdrSaid, hdrShown, hi, this]; rfl
      · refine Called.stop (y := { x with chapters := p }) (st := st) ?_ hx h1 fun _ => hz
        rw [parseHeaders, hi, e]; simp [hz, Res.bind_ok]
  | .tags ts :: es, x, m, f, hu, hx, h => by
    cases hi : x.tags with
    | some i =>
      refine Called.next (parseHeaders_spec (fun e he => hu e (by simp [he])) hx h) (by rw [parseHeaders, hi]; rfl) fun _ => ?_
      simp only [hdrSaid, hdrShown, hi]; rfl
    | none =>
      have hb : TagsSmall ts := hu (.tags ts) (by simp)
      obtain ⟨st, p, m1, e, hp, h1, hs⟩ := newObj_spec (can := can) (P := fun _ => True) (g := arrA (arrA threeA))
        (sh := tagsShown) (said := tagsSaid ts) (NP := TagsNoPositive ts) (parse := fun m => parseTags can ts m) (fun m f h => by
          obtain ⟨st, v, m', e, h', hd⟩ := parseTags_at can hb h
          exact ⟨st, v, m', e, trivial, h', fun hn => (hd hn).2⟩) h
      have h1 : Holds m1 fun a => (hdrA { x with tags := p }).count a + f a := h1.of fun a => by
        simp only [hdrA, hi, delA, List.count_append, List.count_nil]; omega
      by_cases hz : st = 0
      · refine Called.next (parseHeaders_spec (fun e he => hu e (by simp [he])) (x := { x with tags := p }) hx h1) ?_ fun hn => ?_
        · rw [parseHeaders, hi, e]; simp [hz, Res.bind_ok]
        · have := (hs hz).2 hn
          simp only [hdrSaid, hdrShown, hi, this]; rfl
      · refine Called.stop (y := { x with tags := p }) (st := st) ?_ hx h1 fun _ => hz
        rw [parseHeaders, hi, e]; simp [hz, Res.bind_ok]

theorem parseAgain_spec {can : Nat → Bool} : ∀ {calls : List (List HdrPart)} {x : Hdr} {m : Mem} {f : Nat → Nat},
    (∀ es ∈ calls, ∀ e ∈ es, HdrPart.Usual e) → x.Fine → Holds m (fun a => (hdrA x).count a + f a) →
    ∃ x' m', parseAgain can calls x m = .ok (x', m') ∧ x'.Fine ∧ Holds m' (fun a => (hdrA x').count a + f a)
  | [], x, m, f, _, hx, h => ⟨x, m, rfl, hx, h⟩
  | es :: calls, x, m, f, hu, hx, h => by
    obtain ⟨st, x', rest, m', e, h1, h2, -⟩ := parseHeaders_spec (can := can) (hu es (by simp)) hx h
    obtain ⟨x2, m2, e2, h3⟩ := parseAgain_spec (can := can) (fun es he => hu es (List.mem_cons_of_mem _ he)) h1 h2
    refine ⟨x2, m2, ?_, h3⟩
    unfold parseAgain
    rw [e, Res.bind_ok]
    exact e2

end Verif.Par.HdrMem

/-
mkvparser goes through the blocks of one track, in a file whose clusters have been loaded.
-/
import Verif.Lemmas.ParserSeek
import Verif.Spec.OneTrack

namespace Verif.Par
open Verif Spec Mux

section
variable {r : Rdr} {scale : Nat}

/-- A cluster object that will show these frames, with entry number `i` already parsed. -/
def Parsed (r : Rdr) (scale : Nat) (c : ReadCluster) (x : Nat × ClusterOf) (i : Nat) (e : Entry) : Prop :=
  c.start = x.1 ∧ ∃ c' es done rest blocks, c.load r = .ok c' ∧ Partway r scale x.2.tc c' es done rest blocks ∧
    done ++ rest = x.2.frames ∧ es[i]? = some e

theorem Parsed.len {c : ReadCluster} {x : Nat × ClusterOf} {i : Nat} {e : Entry} (h : Parsed r scale c x i e) :
    i < x.2.frames.length := by
  obtain ⟨-, c', es, done, rest, blocks, -, h2, h3, h4⟩ := h
  have hlen : es.length = done.length := by simpa using congrArg List.length h2.shown
  have := (List.getElem?_eq_some_iff.mp h4).1
  rw [← h3, List.length_append]
  omega

theorem Parsed.loaded {c : ReadCluster} {x : Nat × ClusterOf} {i : Nat} {e : Entry} (h : Parsed r scale c x i e) :
    Loaded r scale c x := by
  have hl := h.len
  obtain ⟨h0, c', es, done, rest, blocks, h1, h2, h3, h4⟩ := h
  exact ⟨h0, c', es, done, rest, blocks, h1, h2, h3, by intro e; rw [e] at hl; simp at hl⟩

/-- One more entry is parsed. -/
theorem parse_step (hw : r.Whole) {c c' : ReadCluster} {x : Nat × ClusterOf} {es : List Entry} {done rest : List Frame} {blocks : Bytes}
    (h0 : c.start = x.1) (h1 : c.load r = .ok c') (h2 : Partway r scale x.2.tc c' es done rest blocks) (h3 : done ++ rest = x.2.frames)
    (hne : x.2.frames ≠ []) :
    (es.length < x.2.frames.length → ∃ c2 e, c.parse r = .ok (c2, false) ∧ c2.entries.getD [] = es ++ [e] ∧
      Parsed r scale c2 x es.length e) ∧
    (es.length = x.2.frames.length → ∃ c2, c.parse r = .ok (c2, true) ∧ c2.entries.getD [] = es ∧ Loaded r scale c2 x) := by
  have hlen : es.length = done.length := by simpa using congrArg List.length h2.shown
  obtain ⟨-, ls⟩ := ReadCluster.load_entries h1
  rw [parse_load h1 h2.load]
  constructor
  · intro hlt
    cases rest with
    | nil => rw [← h3] at hlt; simp at hlt; omega
    | cons f fs =>
      have hb := h2.isBlocks
      obtain ⟨b, bs, hbb, hB', hR⟩ : ∃ b bs, blocks = b ++ bs ∧ IsBlock x.2.tc scale f b ∧ Blocks x.2.tc scale fs bs := by
        generalize hq : blocks = q at hb
        cases hb with
        | cons hB hR => exact ⟨_, _, rfl, hB, hR⟩
      obtain ⟨c2, e, q1, q2, q3, q4, q5⟩ := h2.parse_more hw hbb hB' hR
      exact ⟨c2, e, q1, q2.entries, by omega, c2, _, _, _, _, q2.load, q2, by simp [← h3], by simp⟩
  · intro heq
    cases rest with
    | cons f fs => rw [← h3] at heq; simp at heq; omega
    | nil =>
      obtain ⟨c2, q1, q2, q3, q4⟩ := h2.parse_done hw
      exact ⟨c2, q1, q2.entries, by omega, c2, _, _, _, _, q2.load, q2, h3, hne⟩

/-- The first entry of a cluster. -/
theorem getFirst_ok (hw : r.Whole) {c : ReadCluster} {x : Nat × ClusterOf} (h : Loaded r scale c x) :
    ∃ c2 e, c.getFirst r = .ok (c2, some e) ∧ Parsed r scale c2 x 0 e := by
  obtain ⟨h0, c', es, done, rest, blocks, h1, h2, h3, hne⟩ := h
  obtain ⟨le, ls⟩ := ReadCluster.load_entries h1
  have hent := h2.entries
  rw [le] at hent
  unfold ReadCluster.getFirst
  cases es with
  | cons e es =>
    rw [hent]
    exact ⟨c, e, rfl, h0, c', _, _, _, _, h1, h2, h3, rfl⟩
  | nil =>
    obtain ⟨c2, e, p1, p2, p3⟩ := (parse_step hw h0 h1 h2 h3 hne).1 (List.length_pos_iff.mpr hne)
    rw [hent]
    simp only
    rw [p1, Res.bind_ok]
    simp only
    rw [p2]
    exact ⟨c2, e, rfl, p3⟩

/-- The entry after one. -/
theorem getNext_ok (hw : r.Whole) {c : ReadCluster} {x : Nat × ClusterOf} {i : Nat} {e : Entry} (h : Parsed r scale c x i e) :
    (i + 1 < x.2.frames.length → ∃ c2 e', c.getNext r i = .ok (c2, some e') ∧ Parsed r scale c2 x (i + 1) e') ∧
    (i + 1 = x.2.frames.length → ∃ c2, c.getNext r i = .ok (c2, none) ∧ Loaded r scale c2 x) := by
  have hL := h.loaded
  obtain ⟨h0, c', es, done, rest, blocks, h1, h2, h3, h4⟩ := h
  obtain ⟨-, -, -, -, -, -, -, -, -, hne⟩ := hL
  obtain ⟨le, ls⟩ := ReadCluster.load_entries h1
  have hent := h2.entries
  rw [le] at hent
  have hlen : es.length = done.length := by simpa using congrArg List.length h2.shown
  have hi := (List.getElem?_eq_some_iff.mp h4).1
  have hdl : done.length ≤ x.2.frames.length := by rw [← h3, List.length_append]; omega
  unfold ReadCluster.getNext
  rw [hent, Res.assert, if_pos hi]
  simp only [Res.bind_ok]
  obtain ⟨p1, p2⟩ := parse_step hw h0 h1 h2 h3 hne
  constructor
  · intro hlt
    by_cases hn : i + 1 < es.length
    · rw [List.getElem?_eq_getElem hn]
      exact ⟨c, es[i + 1], rfl, h0, c', es, done, rest, blocks, h1, h2, h3, List.getElem?_eq_getElem hn⟩
    · have hn' : es.length = i + 1 := by omega
      rw [List.getElem?_eq_none (by omega)]
      obtain ⟨c2, e', q1, q2, q3⟩ := p1 (by omega)
      simp only
      rw [q1, Res.bind_ok]
      simp only [Bool.false_eq_true, if_false]
      rw [q2, ← hn', List.getElem?_append_right (by omega), Nat.sub_self]
      exact ⟨c2, e', rfl, q3⟩
  · intro heq
    rw [List.getElem?_eq_none (by omega)]
    obtain ⟨c2, q1, -, q3⟩ := p2 (by omega)
    simp only
    rw [q1, Res.bind_ok]
    exact ⟨c2, rfl, q3⟩

/-- `m_entries[index]` in `GetEntry`, when the entries before are parsed. -/
def ParsedTo (r : Rdr) (scale : Nat) (c : ReadCluster) (x : Nat × ClusterOf) (n : Nat) : Prop :=
  c.start = x.1 ∧ ∃ c' es done rest blocks, c.load r = .ok c' ∧ Partway r scale x.2.tc c' es done rest blocks ∧
    done ++ rest = x.2.frames ∧ x.2.frames ≠ [] ∧ n ≤ es.length

theorem Parsed.to {c : ReadCluster} {x : Nat × ClusterOf} {i : Nat} {e : Entry} (h : Parsed r scale c x i e) :
    ParsedTo r scale c x (i + 1) := by
  obtain ⟨-, -, -, -, -, -, -, -, -, hne⟩ := h.loaded
  obtain ⟨h0, c', es, done, rest, blocks, h1, h2, h3, h4⟩ := h
  exact ⟨h0, c', es, done, rest, blocks, h1, h2, h3, hne, (List.getElem?_eq_some_iff.mp h4).1⟩

theorem Loaded.to {c : ReadCluster} {x : Nat × ClusterOf} (h : Loaded r scale c x) : ParsedTo r scale c x 0 := by
  obtain ⟨h0, c', es, done, rest, blocks, h1, h2, h3, hne⟩ := h
  exact ⟨h0, c', es, done, rest, blocks, h1, h2, h3, hne, Nat.zero_le _⟩

/-- The entries of the one are entries of the other. -/
def Keeps (c c2 : ReadCluster) : Prop := ∀ (j : Nat) (e : Entry), (c.entries.getD [])[j]? = some e → (c2.entries.getD [])[j]? = some e

theorem parsed_iff {c : ReadCluster} {x : Nat × ClusterOf} {i : Nat} {e : Entry} :
    Parsed r scale c x i e ↔ Loaded r scale c x ∧ (c.entries.getD [])[i]? = some e := by
  constructor
  · intro h
    refine ⟨h.loaded, ?_⟩
    obtain ⟨h0, c', es, done, rest, blocks, h1, h2, h3, h4⟩ := h
    rw [← (ReadCluster.load_entries h1).1, h2.entries, h4]
  · rintro ⟨⟨h0, c', es, done, rest, blocks, h1, h2, h3, hne⟩, h4⟩
    rw [← (ReadCluster.load_entries h1).1, h2.entries] at h4
    exact ⟨h0, c', es, done, rest, blocks, h1, h2, h3, h4⟩

theorem Parsed.keep {c c2 : ReadCluster} {x : Nat × ClusterOf} {i : Nat} {e : Entry} (h : Parsed r scale c x i e)
    (hl : Loaded r scale c2 x) (hk : Keeps c c2) : Parsed r scale c2 x i e :=
  parsed_iff.mpr ⟨hl, hk _ _ (parsed_iff.mp h).2⟩

theorem entryOr_ok (hw : r.Whole) {c : ReadCluster} {x : Nat × ClusterOf} {i : Nat} (h : ParsedTo r scale c x i) :
    (i < x.2.frames.length → ∃ c2 e, c.entryOr r i = .ok (c2, some e) ∧ Parsed r scale c2 x i e ∧ Keeps c c2) ∧
    (i = x.2.frames.length → ∃ c2, c.entryOr r i = .ok (c2, none) ∧ Loaded r scale c2 x ∧ Keeps c c2) := by
  obtain ⟨h0, c', es, done, rest, blocks, h1, h2, h3, hne, hi⟩ := h
  obtain ⟨le, ls⟩ := ReadCluster.load_entries h1
  have hent := h2.entries
  rw [le] at hent
  have hlen : es.length = done.length := by simpa using congrArg List.length h2.shown
  have hdl : done.length ≤ x.2.frames.length := by rw [← h3, List.length_append]; omega
  unfold ReadCluster.entryOr
  rw [hent]
  obtain ⟨p1, p2⟩ := parse_step hw h0 h1 h2 h3 hne
  constructor
  · intro hlt
    by_cases hn : i < es.length
    · rw [List.getElem?_eq_getElem hn]
      exact ⟨c, es[i], rfl, ⟨h0, c', es, done, rest, blocks, h1, h2, h3, List.getElem?_eq_getElem hn⟩, fun j e h => h⟩
    · have hn' : es.length = i := by omega
      rw [List.getElem?_eq_none (by omega)]
      obtain ⟨c2, e', q1, q2, q3⟩ := p1 (by omega)
      simp only
      rw [q1]
      simp only
      rw [q2, ← hn', List.getElem?_append_right (by omega), Nat.sub_self]
      refine ⟨c2, e', rfl, q3, fun j e h => ?_⟩
      rw [hent] at h
      rw [q2, List.getElem?_append_left (List.getElem?_eq_some_iff.mp h).1, h]
  · intro heq
    rw [List.getElem?_eq_none (by omega)]
    obtain ⟨c2, q1, q2, q3⟩ := p2 (by omega)
    simp only
    rw [q1]
    exact ⟨c2, rfl, q3, fun j e h => by rw [q2, ← hent]; exact h⟩

theorem watchEntry_key {tc : Int} {e : Entry} {f : SeenFrame} (h : watchEntry r tc e = .ok [f]) :
    blockGetTimeCode tc e.block.timecode = .ok f.time ∧ e.block.track = f.track ∧ e.block.isKey = f.key := by
  unfold watchEntry at h
  cases hf : e.block.frames with
  | nil => rw [hf] at h; cases h
  | cons b bs =>
    rw [hf] at h
    unfold watchFrames at h
    obtain ⟨t, h1, h⟩ := Res.bind_eq_ok.mp h
    obtain ⟨d, h2, h⟩ := Res.bind_eq_ok.mp h
    obtain ⟨l, h3, h⟩ := Res.bind_eq_ok.mp h
    cases h
    exact ⟨h1, rfl, rfl⟩

theorem Loaded.time {c : ReadCluster} {x : Nat × ClusterOf} (h : Loaded r scale c x) :
    ∃ c2, c.getTimeCode r = .ok (c2, (x.2.tc : Int)) ∧ c2.start = c.start := by
  obtain ⟨h0, c', es, done, rest, blocks, h1, h2, h3, hne⟩ := h
  unfold ReadCluster.getTimeCode
  rw [h1]
  refine ⟨c', ?_, (ReadCluster.load_entries h1).2⟩
  simp only
  rw [h2.timecode]
  rfl

/-- What is known of an entry. -/
theorem Parsed.shows {c : ReadCluster} {x : Nat × ClusterOf} {i : Nat} {e : Entry} (h : Parsed r scale c x i e) {f : Frame}
    (hf : x.2.frames[i]? = some f) : watchEntry r x.2.tc e = .ok [f.asWatched scale] := by
  obtain ⟨h0, c', es, done, rest, blocks, h1, h2, h3, h4⟩ := h
  have hlen : es.length = done.length := by simpa using congrArg List.length h2.shown
  have hlt := (List.getElem?_eq_some_iff.mp h4).1
  rw [← h3, List.getElem?_append_left (by omega)] at hf
  have h := congrArg (fun l => l[i]?) h2.shown
  simp only [List.getElem?_map, h4, hf, Option.map_some, Option.some.injEq] at h
  exact h

theorem Parsed.has {c : ReadCluster} {x : Nat × ClusterOf} {i : Nat} {e : Entry} (h : Parsed r scale c x i e) {f : Frame}
    (hf : x.2.frames[i]? = some f) (t : ReadTrack) :
    t.has e = t.isOf (f.asWatched scale) ∧ t.vet e = t.starts (f.asWatched scale) := by
  obtain ⟨-, h2, h3⟩ := watchEntry_key (h.shows hf)
  unfold ReadTrack.vet ReadTrack.starts ReadTrack.has ReadTrack.isOf
  rw [h2, h3]
  exact ⟨rfl, rfl⟩

/-- The loop over the entries of a cluster. -/
theorem seekFrom_ok (hw : r.Whole) {x : Nat × ClusterOf} {p : Entry → Bool} {q : SeenFrame → Bool}
    (hpq : ∀ {c i e f}, Parsed r scale c x i e → x.2.frames[i]? = some f → p e = q (f.asWatched scale)) :
    ∀ (n : Nat) {c : ReadCluster} {i fuel : Nat} {e : Entry}, x.2.frames.length - i = n → n ≤ fuel → Parsed r scale c x i e →
    (∃ c2 j e2 f2, c.seekFrom r p fuel i e = (c2, .ok (some (j, e2))) ∧ Parsed r scale c2 x j e2 ∧ x.2.frames[j]? = some f2 ∧
      q (f2.asWatched scale) = true ∧
      ((x.2.frames.drop i).map (Frame.asWatched scale)).dropWhile (fun f => !q f) = (x.2.frames.drop j).map (Frame.asWatched scale)) ∨
    (∃ c2, c.seekFrom r p fuel i e = (c2, .ok none) ∧ Loaded r scale c2 x ∧
      ((x.2.frames.drop i).map (Frame.asWatched scale)).dropWhile (fun f => !q f) = []) := by
  intro n
  induction n with
  | zero => intro c i fuel e hn hf h; have := h.len; omega
  | succ n ih =>
    intro c i fuel e hn hf h
    have hi := h.len
    obtain ⟨f, rfl⟩ : ∃ f, fuel = f + 1 := ⟨fuel - 1, by omega⟩
    have hfi := List.getElem?_eq_getElem hi
    rw [ReadCluster.seekFrom, hpq h hfi, List.drop_eq_getElem_cons hi, List.map_cons]
    by_cases hq : q (x.2.frames[i].asWatched scale) = true
    · rw [if_pos hq, List.dropWhile_cons_of_neg (by simp [hq])]
      exact .inl ⟨c, i, e, _, rfl, h, hfi, hq, by rw [List.drop_eq_getElem_cons hi, List.map_cons]⟩
    · rw [if_neg hq, List.dropWhile_cons_of_pos (by simp [hq])]
      obtain ⟨n1, n2⟩ := getNext_ok hw h
      by_cases hlt : i + 1 < x.2.frames.length
      · obtain ⟨c2, e', g1, g2⟩ := n1 hlt
        rw [g1]
        exact ih (by omega) (by omega) g2
      · obtain ⟨c2, g1, g2⟩ := n2 (by omega)
        rw [g1]
        exact .inr ⟨c2, rfl, g2, by rw [List.drop_eq_nil_of_le (by omega)]; rfl⟩

/-! ### The segment -/

/-- The frames of the clusters. -/
abbrev seenIn (scale : Nat) (xs : List (Nat × ClusterOf)) : List (List SeenFrame) := xs.map fun x => x.2.frames.map (Frame.asWatched scale)

/-- A loaded segment with these clusters. -/
structure Known (r : Rdr) (scale fuel : Nat) (g : ReadSegment) (xs : List (Nat × ClusterOf)) : Prop where
  loaded : LoadedAll r scale g.clusters xs
  done : g.doneParsing r = true
  count : xs.length ≤ fuel
  frames : ∀ x ∈ xs, x.2.frames.length < fuel

theorem Known.set {fuel : Nat} {g : ReadSegment} {xs : List (Nat × ClusterOf)} (h : Known r scale fuel g xs) {k : Nat} {x : Nat × ClusterOf}
    {c : ReadCluster} (hx : xs[k]? = some x) (hc : Loaded r scale c x) : Known r scale fuel (g.with k c) xs :=
  ⟨h.loaded.set hx hc, h.done, h.count, h.frames⟩

/-- A place in the segment. -/
def Stands (r : Rdr) (scale : Nat) (g : ReadSegment) (xs : List (Nat × ClusterOf)) : Place → Option Spot → Prop
  | .eos, s => s = none
  | .entry k i e, s => ∃ c x, g.clusters[k]? = some c ∧ xs[k]? = some x ∧ Parsed r scale c x i e ∧
      s = some ((x.2.frames.drop i).map (Frame.asWatched scale), seenIn scale (xs.drop (k + 1)))

theorem Known.next {fuel : Nat} {g : ReadSegment} {xs : List (Nat × ClusterOf)} (h : Known r scale fuel g xs) (k : Nat) :
    g.getNext k = if k + 1 < xs.length then some (k + 1) else none := by
  unfold ReadSegment.getNext
  rw [h.loaded.length]
  by_cases hk : k + 1 < xs.length
  · rw [if_pos hk, if_neg (by omega)]
  · rw [if_neg hk, if_pos (by omega)]

theorem Known.noMore {fuel : Nat} {g : ReadSegment} {xs : List (Nat × ClusterOf)} (h : Known r scale fuel g xs) :
    g.noMore r = (g, .ok .eos) := by
  unfold ReadSegment.noMore
  rw [h.done]
  rfl

theorem with_get {g : ReadSegment} {k : Nat} {c c' : ReadCluster} (h : g.clusters[k]? = some c) : (g.with k c').clusters[k]? = some c' := by
  have := (List.getElem?_eq_some_iff.mp h).1
  simp [ReadSegment.with, this]

/-- The loop of `GetFirst`. -/
theorem firstLoop_ok (hw : r.Whole) {t : ReadTrack} {fuel : Nat} {xs : List (Nat × ClusterOf)} :
    ∀ (m : Nat) {g : ReadSegment} {k i F : Nat}, xs.length - k = m → k < xs.length → m < F → i < 100 → Known r scale fuel g xs →
    ∃ g' p, ReadSegment.firstLoop r fuel t F g (some k) i = (g', .ok p) ∧ Known r scale fuel g' xs ∧
      g'.info = g.info ∧
      Stands r scale g' xs p (firstSpot t (100 - i) (seenIn scale (xs.drop k))) := by
  intro m
  induction m with
  | zero => intro g k i F hm hk; omega
  | succ m ih =>
    intro g k i F hm hk hF hi h
    obtain ⟨F, rfl⟩ : ∃ f, F = f + 1 := ⟨F - 1, by omega⟩
    obtain ⟨c, hc, hL⟩ := h.loaded.get hk
    have hxk := List.getElem?_eq_getElem hk
    obtain ⟨c2, e, g1, g2⟩ := getFirst_ok hw hL
    obtain ⟨n, hn⟩ : ∃ n, 100 - i = n + 1 := ⟨99 - i, by omega⟩
    have hfr := h.frames _ (List.getElem_mem hk)
    rw [ReadSegment.firstLoop, hc]
    simp only
    rw [g1]
    simp only
    have hd : seenIn scale (xs.drop k) = (xs[k].2.frames.map (Frame.asWatched scale)) :: seenIn scale (xs.drop (k + 1)) := by
      rw [List.drop_eq_getElem_cons hk]; rfl
    rw [hn, hd, firstSpot]
    rcases seekFrom_ok hw (p := t.vet) (q := t.starts) (fun hP hf => (hP.has hf t).2) _ rfl (fuel := fuel) (by omega) g2 with
      ⟨c3, j, e3, f3, s1, s2, s3, s4, s5⟩ | ⟨c3, s1, s2, s3⟩
    · rw [s1]
      simp only
      refine ⟨_, _, rfl, h.set hxk s2.loaded, rfl, ?_⟩
      rw [List.drop_zero] at s5
      rw [s5]
      refine ⟨c3, xs[k], with_get hc, hxk, s2, ?_⟩
      have hj := s2.len
      rw [List.drop_eq_getElem_cons hj]
      rfl
    · rw [s1]
      simp only
      rw [List.drop_zero] at s3
      rw [s3]
      simp only
      have hK := h.set hxk s2
      by_cases h99 : i + 1 ≥ 100
      · rw [if_pos h99]
        refine ⟨_, _, rfl, hK, rfl, ?_⟩
        have : n = 0 := by omega
        subst this
        show firstSpot t 0 _ = none
        cases seenIn scale (xs.drop (k + 1)) <;> rfl
      · rw [if_neg h99, h.next k]
        by_cases hk1 : k + 1 < xs.length
        · rw [if_pos hk1]
          obtain ⟨g', p, i1, i2, i3, i4⟩ := ih (F := F) (by omega) hk1 (by omega) (by omega) hK (i := i + 1)
          refine ⟨g', p, i1, i2, i3, ?_⟩
          have : 100 - (i + 1) = n := by omega
          rw [this] at i4
          exact i4
        · rw [if_neg hk1]
          obtain ⟨F, rfl⟩ : ∃ f, F = f + 1 := ⟨F - 1, by omega⟩
          rw [ReadSegment.firstLoop, hK.noMore]
          refine ⟨_, _, rfl, hK, rfl, ?_⟩
          rw [List.drop_eq_nil_of_le (by omega)]
          show firstSpot t n [] = none
          cases n <;> rfl

/-- `GetFirst`. -/
theorem trackFirst_ok (hw : r.Whole) (t : ReadTrack) {fuel : Nat} {xs : List (Nat × ClusterOf)} {g : ReadSegment}
    (h : Known r scale fuel g xs) :
    ∃ g' p, g.trackFirst r fuel t = (g', .ok p) ∧ Known r scale fuel g' xs ∧ g'.info = g.info ∧
      Stands r scale g' xs p (firstSpot t 100 (seenIn scale xs)) := by
  have hc := h.count
  unfold ReadSegment.trackFirst ReadSegment.getFirst
  rw [h.loaded.length]
  by_cases h0 : xs.length = 0
  · rw [if_pos h0, ReadSegment.firstLoop, h.noMore]
    exact ⟨_, _, rfl, h, rfl, by rw [List.length_eq_zero_iff.mp h0]; rfl⟩
  · rw [if_neg h0]
    exact firstLoop_ok hw xs.length (by omega) (by omega) (by omega) (by omega) h

/-- The first place of a frame of the track in the next `n` clusters. -/
def laterSpot (t : ReadTrack) : (n : Nat) → List (List SeenFrame) → Option Spot
  | _, [] => none
  | 0, _ :: _ => none
  | n + 1, c :: cs =>
    match c.dropWhile fun f => !t.isOf f with
    | [] => laterSpot t n cs
    | f :: fs => some (f :: fs, cs)

/-- The place `GetNext` goes to. -/
def nextSpot (t : ReadTrack) (n : Nat) (here : List SeenFrame) (later : List (List SeenFrame)) : Option Spot :=
  match here.dropWhile fun f => !t.isOf f with
  | [] => laterSpot t n later
  | f :: fs => some (f :: fs, later)

/-- The loop of `GetNext`. -/
theorem nextLoop_ok (hw : r.Whole) {t : ReadTrack} {fuel : Nat} {xs : List (Nat × ClusterOf)} :
    ∀ (m : Nat) {g : ReadSegment} {k i F : Nat} {c : ReadCluster} {x : Nat × ClusterOf} {here : Option (Nat × Entry)} {hs : List SeenFrame},
    xs.length - k = m → m ≤ F → i < 100 → Known r scale fuel g xs → g.clusters[k]? = some c → xs[k]? = some x →
    (match here with
      | none => hs = []
      | some (j, e) => Parsed r scale c x j e ∧ hs = (x.2.frames.drop j).map (Frame.asWatched scale)) →
    ∃ g' p, ReadSegment.nextLoop r fuel t F g k here i = (g', .ok p) ∧ Known r scale fuel g' xs ∧
      Stands r scale g' xs p (nextSpot t (99 - i) hs (seenIn scale (xs.drop (k + 1)))) := by
  intro m
  induction m with
  | zero =>
    intro g k i F c x here hs hm hF hi h hc hx _
    have := (List.getElem?_eq_some_iff.mp hx).1
    omega
  | succ m ih =>
    intro g k i F c x here hs hm hF hi h hc hx hhere
    have hk := (List.getElem?_eq_some_iff.mp hx).1
    have hxk : xs[k] = x := (List.getElem?_eq_some_iff.mp hx).2
    have hfr := h.frames _ (List.mem_of_getElem? hx)
    obtain ⟨F, rfl⟩ : ∃ f, F = f + 1 := ⟨F - 1, by omega⟩
    rw [ReadSegment.nextLoop, hc]
    simp only
    unfold nextSpot
    -- the rest of this cluster
    have hscan : (∃ c2 j e2 f2, c.seekOn r t.has fuel here = (c2, .ok (some (j, e2))) ∧
            Parsed r scale c2 x j e2 ∧ x.2.frames[j]? = some f2 ∧
            hs.dropWhile (fun f => !t.isOf f) = (x.2.frames.drop j).map (Frame.asWatched scale)) ∨
        (∃ c2, c.seekOn r t.has fuel here = (c2, .ok none) ∧
            Loaded r scale c2 x ∧ hs.dropWhile (fun f => !t.isOf f) = []) := by
      cases here with
      | none =>
        simp only at hhere
        subst hhere
        obtain ⟨c', hc', hL⟩ := h.loaded.get hk
        rw [hc] at hc'
        cases hc'
        rw [hxk] at hL
        exact .inr ⟨c, rfl, hL, rfl⟩
      | some je =>
        obtain ⟨j, e⟩ := je
        obtain ⟨hP, rfl⟩ := hhere
        rcases seekFrom_ok hw (p := t.has) (q := t.isOf) (fun hP hf => (hP.has hf t).1) _ rfl (fuel := fuel) (by omega) hP with
          ⟨c3, j, e3, f3, s1, s2, s3, -, s5⟩ | h
        · exact .inl ⟨c3, j, e3, f3, s1, s2, s3, s5⟩
        · exact .inr h
    rcases hscan with ⟨c2, j, e2, f2, s1, s2, s3, s4⟩ | ⟨c2, s1, s2, s3⟩
    · rw [s1]
      simp only
      refine ⟨_, _, rfl, h.set hx s2.loaded, ?_⟩
      rw [s4]
      refine ⟨c2, x, with_get hc, hx, s2, ?_⟩
      rw [List.drop_eq_getElem_cons s2.len]
      rfl
    · rw [s1]
      simp only
      rw [s3]
      simp only
      have hK := h.set hx s2
      rw [h.next k]
      by_cases hk1 : k + 1 < xs.length
      · rw [if_pos hk1]
        obtain ⟨d, hd, hLd⟩ := h.loaded.get hk1
        have hx1 := List.getElem?_eq_getElem hk1
        obtain ⟨d2, e, g1, g2⟩ := getFirst_ok hw hLd
        simp only
        rw [hd]
        simp only
        rw [g1]
        simp only
        have hK2 := hK.set hx1 g2.loaded
        have hdd : seenIn scale (xs.drop (k + 1)) = (xs[k + 1].2.frames.map (Frame.asWatched scale)) :: seenIn scale (xs.drop (k + 1 + 1)) := by
          rw [List.drop_eq_getElem_cons hk1]; rfl
        rw [hdd]
        by_cases h99 : i + 1 ≥ 100
        · rw [if_pos h99]
          have : 99 - i = 0 := by omega
          rw [this]
          exact ⟨_, _, rfl, hK2, rfl⟩
        · rw [if_neg h99]
          obtain ⟨n, hn⟩ : ∃ n, 99 - i = n + 1 := ⟨98 - i, by omega⟩
          rw [hn, laterSpot]
          have hd' : ((g.with k c2).with (k + 1) d2).clusters[k + 1]? = some d2 := by
            refine with_get (c := d) ?_
            simp only [ReadSegment.with]
            rw [List.getElem?_set_ne (by omega)]
            exact hd
          obtain ⟨g', p, i1, i2, i3⟩ := ih (F := F) (i := i + 1) (here := some (0, e)) (by omega) (by omega) (by omega) hK2 hd' hx1
            ⟨g2, rfl⟩
          refine ⟨g', p, i1, i2, ?_⟩
          have : 99 - (i + 1) = n := by omega
          rw [this] at i3
          exact i3
      · rw [if_neg hk1]
        simp only
        rw [hK.noMore]
        refine ⟨_, _, rfl, hK, ?_⟩
        rw [List.drop_eq_nil_of_le (by omega)]
        show laterSpot t (99 - i) [] = none
        cases 99 - i <;> rfl

/-- `GetNext`. -/
theorem trackNext_ok (hw : r.Whole) {t : ReadTrack} {fuel : Nat} {xs : List (Nat × ClusterOf)} {g : ReadSegment}
    (h : Known r scale fuel g xs) {k i : Nat} {e : Entry} {f : SeenFrame} {fs : List SeenFrame} {later : List (List SeenFrame)}
    (hp : Stands r scale g xs (.entry k i e) (some (f :: fs, later))) (hf : t.isOf f = true) :
    shownAt r g k e = .ok [f] ∧
    ∃ g' p, g.trackNext r fuel t k i e = (g', .ok p) ∧ Known r scale fuel g' xs ∧
      Stands r scale g' xs p (nextSpot t 99 fs later) := by
  obtain ⟨c, x, hc, hx, hP, hs⟩ := hp
  have hi := hP.len
  have hk := (List.getElem?_eq_some_iff.mp hx).1
  have hcount := h.count
  rw [List.drop_eq_getElem_cons hi, List.map_cons] at hs
  simp only [Option.some.injEq, Prod.mk.injEq, List.cons.injEq] at hs
  obtain ⟨⟨rfl, rfl⟩, rfl⟩ := hs
  have hfi := List.getElem?_eq_getElem hi
  obtain ⟨c', t1, -⟩ := hP.loaded.time
  constructor
  · unfold shownAt
    rw [hc]
    simp only
    rw [t1]
    exact hP.shows hfi
  · unfold ReadSegment.trackNext
    rw [if_pos (by rw [(hP.has hfi t).1]; exact hf)]
    rw [hc]
    simp only
    obtain ⟨n1, n2⟩ := getNext_ok hw hP
    by_cases hlt : i + 1 < x.2.frames.length
    · obtain ⟨c2, e', g1, g2⟩ := n1 hlt
      rw [g1]
      simp only [Option.map_some]
      exact nextLoop_ok hw _ rfl (by omega) (by omega) (h.set hx g2.loaded) (with_get hc) hx ⟨g2, rfl⟩
    · obtain ⟨c2, g1, g2⟩ := n2 (by omega)
      rw [g1]
      simp only [Option.map_none]
      exact nextLoop_ok hw _ rfl (by omega) (by omega) (h.set hx g2) (with_get hc) hx
        (by rw [List.drop_eq_nil_of_le (by omega)]; rfl)

/-- The number of frames from a place on. -/
def _root_.Verif.Spec.Spot.size (s : Spot) : Nat := s.1.length + s.2.flatten.length

theorem dropWhile_filter {p : SeenFrame → Bool} (l : List SeenFrame) : (l.dropWhile fun f => !p f).filter p = l.filter p := by
  induction l with
  | nil => rfl
  | cons a l ih =>
    by_cases h : p a = true
    · rw [List.dropWhile_cons_of_neg (by simp [h])]
    · rw [List.dropWhile_cons_of_pos (by simp [h]), ih, List.filter_cons_of_neg h]

theorem dropWhile_head {p : SeenFrame → Bool} {l : List SeenFrame} {f : SeenFrame} {fs : List SeenFrame}
    (h : (l.dropWhile fun f => !p f) = f :: fs) : p f = true := by
  have := List.head?_dropWhile_not (fun f => !p f) l
  rw [h] at this
  simpa using this

theorem dropWhile_len {p : SeenFrame → Bool} (l : List SeenFrame) : (l.dropWhile p).length ≤ l.length :=
  (List.dropWhile_sublist p).length_le

theorem laterSpot_shown {t : ReadTrack} : ∀ (later : List (List SeenFrame)) (n : Nat),
    (laterSpot t n later).elim [] (Spot.shown t) = follow t n later ∧
    ∀ s ∈ laterSpot t n later, s.size ≤ later.flatten.length ∧ ∃ f fs, s.1 = f :: fs ∧ t.isOf f = true := by
  intro later
  induction later with
  | nil => intro n; cases n <;> exact ⟨rfl, fun s hs => by cases hs⟩
  | cons c cs ih =>
    intro n
    cases n with
    | zero => exact ⟨rfl, fun s hs => by cases hs⟩
    | succ n =>
      rw [laterSpot, follow, ← dropWhile_filter c]
      cases hd : c.dropWhile fun f => !t.isOf f with
      | nil =>
        simp only [List.filter_nil]
        refine ⟨(ih n).1, fun s hs => ?_⟩
        obtain ⟨h1, h2⟩ := (ih n).2 s hs
        exact ⟨by rw [List.flatten_cons, List.length_append]; omega, h2⟩
      | cons f fs =>
        have hf := dropWhile_head hd
        have hl := dropWhile_len (p := fun f => !t.isOf f) c
        simp only [List.filter_cons_of_pos hf]
        constructor
        · simp only [Option.elim, Spot.shown, List.filter_cons_of_pos hf]
        · intro s hs
          cases hs
          rw [hd] at hl
          exact ⟨by simp [Spot.size] at hl ⊢; omega, f, fs, rfl, hf⟩

theorem nextSpot_shown {t : ReadTrack} (here : List SeenFrame) (later : List (List SeenFrame)) :
    (nextSpot t 99 here later).elim [] (Spot.shown t) = Spot.shown t (here, later) ∧
    ∀ s ∈ nextSpot t 99 here later, s.size ≤ here.length + later.flatten.length ∧ ∃ f fs, s.1 = f :: fs ∧ t.isOf f = true := by
  unfold nextSpot Spot.shown
  simp only
  rw [← dropWhile_filter here]
  cases hd : here.dropWhile fun f => !t.isOf f with
  | nil =>
    refine ⟨by simp only [List.filter_nil, List.nil_append]; exact (laterSpot_shown later 99).1, fun s hs => ?_⟩
    obtain ⟨h1, h2⟩ := (laterSpot_shown later 99).2 s hs
    exact ⟨by omega, h2⟩
  | cons f fs =>
    have hl := dropWhile_len (p := fun f => !t.isOf f) here
    refine ⟨rfl, fun s hs => ?_⟩
    cases hs
    rw [hd] at hl
    exact ⟨by simp only [Spot.size]; omega, f, fs, rfl, dropWhile_head hd⟩

/-- Playing on. -/
theorem playTrack_ok (hw : r.Whole) {t : ReadTrack} {fuel : Nat} {xs : List (Nat × ClusterOf)} :
    ∀ (n : Nat) {g : ReadSegment} {p : Place} {s : Option Spot}, Known r scale fuel g xs → Stands r scale g xs p s →
    (∀ x ∈ s, x.size ≤ n ∧ ∃ f fs, x.1 = f :: fs ∧ t.isOf f = true) →
    playTrack r fuel t n g p = .ok (s.elim [] (Spot.shown t)) := by
  intro n
  induction n with
  | zero =>
    intro g p s h hp hs
    cases p with
    | eos => cases hp; rfl
    | entry k i e =>
      obtain ⟨c, x, -, -, -, rfl⟩ := hp
      obtain ⟨h1, f, fs, h2, -⟩ := hs _ rfl
      simp only [Spot.size] at h1 h2
      rw [h2] at h1
      simp at h1
  | succ n ih =>
    intro g p s h hp hs
    cases p with
    | eos => cases hp; rfl
    | entry k i e =>
      have hp' := hp
      obtain ⟨c, x, -, -, -, rfl⟩ := hp'
      obtain ⟨h1, f, fs, h2, h3⟩ := hs _ rfl
      simp only [Spot.size] at h1 h2
      rw [h2] at h1 hp ⊢
      obtain ⟨t1, g', p, t2, t3, t4⟩ := trackNext_ok hw h hp h3
      obtain ⟨n1, n2⟩ := nextSpot_shown (t := t) fs (seenIn scale (xs.drop (k + 1)))
      rw [playTrack, t1, Res.bind_ok, t2]
      simp only [succeeded, Res.bind_ok]
      rw [ih t3 t4 (fun s hs => ⟨by have := (n2 s hs).1; rw [List.length_cons] at h1; omega, (n2 s hs).2⟩), Res.bind_ok, n1]
      simp only [Option.elim, Spot.shown, List.filter_cons_of_pos h3]
      rfl

theorem firstSpot_head {t : ReadTrack} : ∀ (cs : List (List SeenFrame)) (n : Nat),
    ∀ s ∈ firstSpot t n cs, s.size ≤ cs.flatten.length ∧ ∃ f fs, s.1 = f :: fs ∧ t.starts f = true := by
  intro cs
  induction cs with
  | nil => intro n s hs; cases n <;> cases hs
  | cons c cs ih =>
    intro n
    cases n with
    | zero => intro s hs; cases hs
    | succ n =>
      rw [firstSpot]
      cases hd : c.dropWhile fun f => !t.starts f with
      | nil =>
        intro s hs
        obtain ⟨h1, h2⟩ := ih n s hs
        exact ⟨by rw [List.flatten_cons, List.length_append]; omega, h2⟩
      | cons f fs =>
        have hl := dropWhile_len (p := fun f => !t.starts f) c
        intro s hs
        cases hs
        rw [hd] at hl
        exact ⟨by simp [Spot.size] at hl ⊢; omega, f, fs, rfl, dropWhile_head hd⟩

theorem starts_isOf {t : ReadTrack} {f : SeenFrame} (h : t.starts f = true) : t.isOf f = true := by
  unfold ReadTrack.starts at h
  simp at h
  exact h.1

/-- From `GetFirst` on. -/
theorem playWhole_ok (hw : r.Whole) (t : ReadTrack) {fuel : Nat} {xs : List (Nat × ClusterOf)} {g : ReadSegment}
    (h : Known r scale fuel g xs) (hcount : (seenIn scale xs).flatten.length ≤ fuel) :
    playWhole r fuel t g = .ok ((firstSpot t 100 (seenIn scale xs)).elim [] (Spot.shown t)) := by
  obtain ⟨g', p, h1, h2, -, h3⟩ := trackFirst_ok hw t h
  unfold playWhole
  rw [h1]
  simp only [succeeded, Res.bind_ok]
  refine playTrack_ok hw fuel h2 h3 fun s hs => ?_
  obtain ⟨s1, f, fs, s2, s3⟩ := firstSpot_head _ _ s hs
  exact ⟨by omega, f, fs, s2, starts_isOf s3⟩

/-! ### Times -/

/-- The times in nanoseconds can be computed, and no frame is earlier than its cluster. -/
structure Timed (scale : Nat) (x : Nat × ClusterOf) : Prop where
  pos : 1 ≤ scale
  after : ∀ f ∈ x.2.frames, x.2.tc ≤ f.timestamp / scale
  fits : ∀ f ∈ x.2.frames, f.timestamp / scale * scale ≤ llongMax

theorem Loaded.getTime {c : ReadCluster} {x : Nat × ClusterOf} (h : Loaded r scale c x) (ht : Timed scale x) :
    c.getTime r (some (scale : Int)) = .ok ((x.2.tc * scale : Nat) : Int) := by
  obtain ⟨c2, h1, -⟩ := h.time
  obtain ⟨-, -, -, -, -, -, -, -, -, hne⟩ := h
  have hpos := ht.pos
  obtain ⟨f, hf⟩ : ∃ f, f ∈ x.2.frames := List.exists_mem_of_ne_nil _ hne
  have hle := Nat.le_trans (Nat.mul_le_mul_right scale (ht.after f hf)) (ht.fits f hf)
  unfold ReadCluster.getTime
  rw [h1, Res.bind_ok]
  simp only
  rw [if_neg (by omega), if_neg (by omega), if_pos (by
    rw [← Int.natCast_mul]
    unfold llongMax at hle
    omega), Int.natCast_mul]

theorem Parsed.blockNs {c : ReadCluster} {x : Nat × ClusterOf} {i : Nat} {e : Entry} {f : Frame} (h : Parsed r scale c x i e)
    (hf : x.2.frames[i]? = some f) (ht : Timed scale x) :
    ∃ c2, c.blockNs r (some (scale : Int)) e = .ok (c2, (f.asWatched scale).time * scale) ∧ Loaded r scale c2 x ∧ Keeps c c2 := by
  obtain ⟨b1, -, -⟩ := watchEntry_key (h.shows hf)
  have hL := h.loaded
  obtain ⟨h0, c', es, done, rest, blocks, h1, h2, h3, hne⟩ := hL
  have hpos := ht.pos
  have hfit := ht.fits f (List.mem_of_getElem? hf)
  refine ⟨c', ?_, ⟨(ReadCluster.load_entries h1).2.trans h0, c', es, done, rest, blocks, h2.load, h2, h3, hne⟩, fun j e h => by
    rw [(ReadCluster.load_entries h1).1]; exact h⟩
  unfold ReadCluster.blockNs ReadCluster.getTimeCode
  rw [h1]
  simp only [Res.bind_ok]
  rw [h2.timecode]
  simp only [Option.elim]
  unfold blockGetTime
  rw [b1]
  simp only
  have htime : (f.asWatched scale).time = ((f.timestamp / scale : Nat) : Int) := rfl
  rw [htime]
  generalize f.timestamp / scale = T at hfit
  rw [if_neg (by omega), if_neg, if_neg, Res.bind_ok]
  · rw [← Int.natCast_mul]
    unfold llongMax at hfit ⊢
    omega
  · rintro ⟨hT, hlt⟩
    rw [Int.tdiv_eq_ediv_of_nonneg (by unfold llongMax; omega)] at hlt
    have hT' : 0 < T := by omega
    have h1 : ((llongMax : Nat) : Int) / (T : Int) = ((llongMax / T : Nat) : Int) := by norm_cast
    have h2 : scale ≤ llongMax / T := (Nat.le_div_iff_mul_le hT').mpr (by rw [Nat.mul_comm]; exact hfit)
    omega

/-- The binary search over the clusters. -/
theorem timeSearch_ok {g : ReadSegment} {xs : List (Nat × ClusterOf)} (h : LoadedAll r scale g.clusters xs)
    (ht : ∀ x ∈ xs, Timed scale x) (hmono : (xs.map (·.2.tc)).Pairwise (· ≤ ·)) (time : Int) {i : Nat} :
    ∀ (n : Nat) {lo hi fuel : Nat}, hi - lo = n → n ≤ fuel → i ≤ lo → lo ≤ hi → hi ≤ xs.length →
    (∀ (j : Nat) (x : Nat × ClusterOf), i ≤ j → j < lo → xs[j]? = some x → ((x.2.tc * scale : Nat) : Int) ≤ time) →
    (∀ (j : Nat) (x : Nat × ClusterOf), hi ≤ j → xs[j]? = some x → time < ((x.2.tc * scale : Nat) : Int)) →
    ∃ m, timeSearch r (some (scale : Int)) g.clusters time fuel lo hi = .ok m ∧ i ≤ m ∧ m ≤ xs.length ∧
      (∀ (j : Nat) (x : Nat × ClusterOf), i ≤ j → j < m → xs[j]? = some x → ((x.2.tc * scale : Nat) : Int) ≤ time) ∧
      (∀ (j : Nat) (x : Nat × ClusterOf), m ≤ j → xs[j]? = some x → time < ((x.2.tc * scale : Nat) : Int)) := by
  have hle : ∀ (a b : Nat) (x y : Nat × ClusterOf), a ≤ b → xs[a]? = some x → xs[b]? = some y → x.2.tc * scale ≤ y.2.tc * scale := by
    intro a b x y hab hx hy
    obtain ⟨a1, a2⟩ := List.getElem?_eq_some_iff.mp hx
    obtain ⟨b1, b2⟩ := List.getElem?_eq_some_iff.mp hy
    rcases Nat.lt_or_ge a b with hlt | hge
    · have := List.pairwise_iff_getElem.mp hmono a b (by simpa using a1) (by simpa using b1) hlt
      simp only [List.getElem_map, a2, b2] at this
      exact Nat.mul_le_mul_right _ this
    · have : a = b := by omega
      subst this
      rw [hx] at hy
      cases hy
      exact Nat.le_refl _
  intro n
  induction n using Nat.strongRecOn with
  | _ n ih =>
    intro lo hi fuel hn hf hilo hlohi hhi hbelow habove
    by_cases hlt : lo < hi
    · obtain ⟨f, rfl⟩ : ∃ f, fuel = f + 1 := ⟨fuel - 1, by omega⟩
      have hmid : lo + (hi - lo) / 2 < xs.length := by omega
      obtain ⟨c, hc, hL⟩ := h.get hmid
      have hxm := List.getElem?_eq_getElem hmid
      rw [timeSearch, if_pos hlt, hc]
      simp only
      rw [hL.getTime (ht _ (List.getElem_mem hmid)), Res.bind_ok]
      by_cases hle' : ((xs[lo + (hi - lo) / 2].2.tc * scale : Nat) : Int) ≤ time
      · rw [if_pos hle']
        refine ih (hi - (lo + (hi - lo) / 2 + 1)) (by omega) rfl (by omega) (by omega) (by omega) hhi ?_ habove
        intro j x h1 h2 h3
        have := hle j _ x _ (by omega) h3 hxm
        omega
      · rw [if_neg hle']
        refine ih (lo + (hi - lo) / 2 - lo) (by omega) rfl (by omega) hilo (by omega) (by omega) hbelow ?_
        intro j x h1 h2
        have := hle _ j _ x (by omega) hxm h2
        omega
    · have : lo = hi := by omega
      subst this
      refine ⟨lo, ?_, hilo, hhi, hbelow, habove⟩
      cases fuel <;> rw [timeSearch, if_neg hlt]

/-! ### The entry of a cluster to go to -/

/-- The last candidate in the rest of a cluster. -/
def cand (t : ReadTrack) (scale : Nat) (time : Int) (later : List (List SeenFrame)) (best : Option Spot) :
    List SeenFrame → Option Spot
  | [] => best
  | f :: fs =>
    if t.isOf f = false then cand t scale time later best fs
    else if f.time * scale > time then best
    else cand t scale time later (if t.starts f then some (f :: fs, later) else best) fs

/-- Playing can begin here, and not later than `time`. -/
def early (t : ReadTrack) (scale : Nat) (time : Int) (s : Spot) : Bool := s.starts t && decide (s.time scale ≤ time)

theorem early_cons {t : ReadTrack} {time : Int} {f : SeenFrame} {fs : List SeenFrame} {later : List (List SeenFrame)} :
    early t scale time (f :: fs, later) = true ↔ t.starts f = true ∧ f.time * (scale : Int) ≤ time := by
  unfold early
  rw [Bool.and_eq_true, decide_eq_true_iff]
  rfl

theorem spotsIn_head {later : List (List SeenFrame)} {c : List SeenFrame} {s : Spot} (h : s ∈ spotsIn later c) :
    ∃ f fs, s = (f :: fs, later) ∧ f ∈ c ∧ fs.length < c.length := by
  induction c with
  | nil => cases h
  | cons f fs ih =>
    rw [spotsIn, List.mem_cons] at h
    rcases h with rfl | h
    · exact ⟨f, fs, rfl, by simp, by simp⟩
    · obtain ⟨f', fs', rfl, h1, h2⟩ := ih h
      exact ⟨f', fs', rfl, by simp [h1], by simp; omega⟩

theorem cand_eq {t : ReadTrack} {time : Int} {later : List (List SeenFrame)} : ∀ (c : List SeenFrame) (best : Option Spot),
    (c.filter t.isOf).Pairwise (fun a b : SeenFrame => a.time * (scale : Int) ≤ b.time * (scale : Int)) →
    cand t scale time later best c = (((spotsIn later c).filter (early t scale time)).getLast?).or best := by
  intro c
  induction c with
  | nil => intro best _; rfl
  | cons f fs ih =>
    intro best hord
    rw [cand, spotsIn]
    by_cases hf : t.isOf f = true
    · rw [if_neg (by simp [hf])]
      rw [List.filter_cons_of_pos hf, List.pairwise_cons] at hord
      by_cases htime : f.time * scale > time
      · rw [if_pos htime]
        have : ((f :: fs, later) :: spotsIn later fs).filter (early t scale time) = [] := by
          rw [List.filter_eq_nil_iff]
          intro s hs
          rw [List.mem_cons] at hs
          rcases hs with rfl | hs
          · rw [early_cons]
            omega
          · obtain ⟨f', fs', rfl, h1, -⟩ := spotsIn_head hs
            rw [early_cons]
            intro hx
            have := hord.1 f' (List.mem_filter.mpr ⟨h1, starts_isOf hx.1⟩)
            omega
        rw [this]
        rfl
      · rw [if_neg htime, ih _ hord.2]
        have he : early t scale time (f :: fs, later) = t.starts f := by
          rw [Bool.eq_iff_iff, early_cons]
          exact ⟨fun h => h.1, fun h => ⟨h, by omega⟩⟩
        by_cases hs : t.starts f = true
        · rw [if_pos hs, List.filter_cons_of_pos (by rw [he]; exact hs), List.getLast?_cons]
          cases ((spotsIn later fs).filter (early t scale time)).getLast? <;> rfl
        · rw [if_neg hs, List.filter_cons_of_neg (by rw [he]; exact hs)]
    · rw [if_pos (by simpa using hf)]
      rw [List.filter_cons_of_neg hf] at hord
      rw [ih _ hord, List.filter_cons_of_neg]
      rw [early_cons]
      intro hx
      exact hf (starts_isOf hx.1)

/-- A candidate. -/
def Best (r : Rdr) (scale : Nat) (c : ReadCluster) (x : Nat × ClusterOf) (later : List (List SeenFrame)) :
    Option (Nat × Entry) → Option Spot → Prop
  | none, s => s = none
  | some (j, e), s => Parsed r scale c x j e ∧ s = some ((x.2.frames.drop j).map (Frame.asWatched scale), later)

theorem Best.keep {c c2 : ReadCluster} {x : Nat × ClusterOf} {later : List (List SeenFrame)} {b : Option (Nat × Entry)} {s : Option Spot}
    (h : Best r scale c x later b s) (hl : Loaded r scale c2 x) (hk : Keeps c c2) : Best r scale c2 x later b s := by
  cases b with
  | none => exact h
  | some je => exact ⟨h.1.keep hl hk, h.2⟩

theorem Keeps.trans {a b c : ReadCluster} (h : Keeps a b) (h' : Keeps b c) : Keeps a c := fun j e x => h' j e (h j e x)

/-- `GetEntry` with a time. -/
theorem entryLoop_time (hw : r.Whole) {t : ReadTrack} {x : Nat × ClusterOf} (ht : Timed scale x) {time : Int} (htime : 0 ≤ time)
    {later : List (List SeenFrame)} :
    ∀ (n : Nat) {c : ReadCluster} {i fuel : Nat} {best : Option (Nat × Entry)} {bs : Option Spot}, x.2.frames.length - i = n → n < fuel →
    i ≤ x.2.frames.length → ParsedTo r scale c x i → Best r scale c x later best bs →
    ∃ c2 res, ReadCluster.entryLoop r t (some (scale : Int)) time fuel c i best = .ok (c2, res) ∧ Loaded r scale c2 x ∧
      Best r scale c2 x later res (cand t scale time later bs ((x.2.frames.drop i).map (Frame.asWatched scale))) := by
  intro n
  induction n with
  | zero =>
    intro c i fuel best bs hn hf hi hp hb
    obtain ⟨f, rfl⟩ : ∃ f, fuel = f + 1 := ⟨fuel - 1, by omega⟩
    obtain ⟨c2, e1, e2, e3⟩ := (entryOr_ok hw hp).2 (by omega)
    rw [ReadCluster.entryLoop, e1, Res.bind_ok, List.drop_eq_nil_of_le (by omega)]
    exact ⟨c2, best, rfl, e2, hb.keep e2 e3⟩
  | succ n ih =>
    intro c i fuel best bs hn hf hi hp hb
    obtain ⟨f, rfl⟩ : ∃ f, fuel = f + 1 := ⟨fuel - 1, by omega⟩
    have hlt : i < x.2.frames.length := by omega
    have hfi := List.getElem?_eq_getElem hlt
    obtain ⟨c2, e, e1, e2, e3⟩ := (entryOr_ok hw hp).1 hlt
    obtain ⟨h1, h2⟩ := e2.has hfi t
    have hb2 := hb.keep e2.loaded e3
    rw [ReadCluster.entryLoop, e1, Res.bind_ok, List.drop_eq_getElem_cons hlt, List.map_cons, cand]
    simp only
    rw [h1]
    by_cases hof : t.isOf (x.2.frames[i].asWatched scale) = false
    · rw [if_pos hof, if_pos hof]
      exact ih (by omega) (by omega) (by omega) e2.to hb2
    · rw [if_neg hof, if_neg hof, if_neg (by omega)]
      obtain ⟨c3, b1, b2, b3⟩ := e2.blockNs hfi ht
      have hb3 := hb2.keep b2 b3
      rw [b1, Res.bind_ok]
      simp only
      by_cases hlate : (x.2.frames[i].asWatched scale).time * scale > time
      · rw [if_pos hlate, if_pos hlate]
        exact ⟨c3, best, rfl, b2, hb3⟩
      · rw [if_neg hlate, if_neg hlate, h2]
        refine ih (by omega) (by omega) (by omega) (e2.keep b2 b3).to ?_
        by_cases hs : t.starts (x.2.frames[i].asWatched scale) = true
        · rw [if_pos hs, if_pos hs]
          refine ⟨e2.keep b2 b3, ?_⟩
          rw [List.drop_eq_getElem_cons hlt, List.map_cons]
        · rw [if_neg hs, if_neg hs]
          exact hb3

/-- `GetEntry` without a time. -/
theorem entryLoop_first (hw : r.Whole) {t : ReadTrack} {x : Nat × ClusterOf} {sc : Option Int} :
    ∀ (n : Nat) {c : ReadCluster} {i fuel : Nat}, x.2.frames.length - i = n → n < fuel →
    i ≤ x.2.frames.length → ParsedTo r scale c x i →
    (∃ c2 j e, ReadCluster.entryLoop r t sc (-1) fuel c i none = .ok (c2, some (j, e)) ∧ Parsed r scale c2 x j e ∧
      ((x.2.frames.drop i).map (Frame.asWatched scale)).dropWhile (fun f => !t.starts f) = (x.2.frames.drop j).map (Frame.asWatched scale)) ∨
    (∃ c2, ReadCluster.entryLoop r t sc (-1) fuel c i none = .ok (c2, none) ∧ Loaded r scale c2 x ∧
      ((x.2.frames.drop i).map (Frame.asWatched scale)).dropWhile (fun f => !t.starts f) = []) := by
  intro n
  induction n with
  | zero =>
    intro c i fuel hn hf hi hp
    obtain ⟨f, rfl⟩ : ∃ f, fuel = f + 1 := ⟨fuel - 1, by omega⟩
    obtain ⟨c2, e1, e2, e3⟩ := (entryOr_ok hw hp).2 (by omega)
    rw [ReadCluster.entryLoop, e1, Res.bind_ok, List.drop_eq_nil_of_le (by omega)]
    exact .inr ⟨c2, rfl, e2, rfl⟩
  | succ n ih =>
    intro c i fuel hn hf hi hp
    obtain ⟨f, rfl⟩ : ∃ f, fuel = f + 1 := ⟨fuel - 1, by omega⟩
    have hlt : i < x.2.frames.length := by omega
    have hfi := List.getElem?_eq_getElem hlt
    obtain ⟨c2, e, e1, e2, e3⟩ := (entryOr_ok hw hp).1 hlt
    obtain ⟨h1, h2⟩ := e2.has hfi t
    rw [ReadCluster.entryLoop, e1, Res.bind_ok, List.drop_eq_getElem_cons hlt, List.map_cons]
    simp only
    rw [h1, h2]
    by_cases hs : t.starts (x.2.frames[i].asWatched scale) = true
    · rw [if_neg (by rw [starts_isOf hs]; decide), if_pos (by decide), if_pos hs, List.dropWhile_cons_of_neg (by simp [hs])]
      exact .inl ⟨c2, i, e, rfl, e2, by rw [List.drop_eq_getElem_cons hlt, List.map_cons]⟩
    · rw [List.dropWhile_cons_of_pos (by simp [hs])]
      have := ih (fuel := f) (by omega) (by omega) (by omega) e2.to
      by_cases hof : t.isOf (x.2.frames[i].asWatched scale) = false
      · rw [if_pos hof]; exact this
      · rw [if_neg hof, if_pos (by decide), if_neg hs]; exact this

/-! ### The way back -/

/-- What each cluster offers. -/
def Offers (r : Rdr) (scale fuel : Nat) (t : ReadTrack) (time want : Int) (xs : List (Nat × ClusterOf)) (Ss : List (List Spot)) : Prop :=
  ∀ (k : Nat) (x : Nat × ClusterOf) (c : ReadCluster) (S : List Spot), xs[k]? = some x → Ss[k]? = some S → Loaded r scale c x →
    ((x.2.tc * scale : Nat) : Int) ≤ time →
    ∃ c2 res, c.trackEntry r fuel t (some (scale : Int)) want = .ok (c2, res) ∧ Loaded r scale c2 x ∧
      Best r scale c2 x (seenIn scale (xs.drop (k + 1))) res S.getLast?

theorem seekBack_ok {t : ReadTrack} {fuel : Nat} {xs : List (Nat × ClusterOf)} {time want : Int} {i : Nat} {Ss : List (List Spot)}
    (ht : ∀ x ∈ xs, Timed scale x) (hS : Offers r scale fuel t time want xs Ss) (hlen : Ss.length = xs.length)
    (hbefore : ∀ (j : Nat) (S : List Spot), j < i → Ss[j]? = some S → S = []) :
    ∀ (lo : Nat) {g : ReadSegment}, Known r scale fuel g xs → lo ≤ xs.length →
    (∀ (j : Nat) (x : Nat × ClusterOf), i ≤ j → j < lo → xs[j]? = some x → ((x.2.tc * scale : Nat) : Int) ≤ time) →
    ∃ g' p, ReadSegment.seekBack r fuel t (some (scale : Int)) time want i lo g = .ok (g', p) ∧ Known r scale fuel g' xs ∧
      Stands r scale g' xs p (Ss.take lo).flatten.getLast? := by
  intro lo
  induction lo with
  | zero => intro g h _ _; exact ⟨g, .eos, rfl, h, rfl⟩
  | succ k ih =>
    intro g h hlo htimes
    rw [ReadSegment.seekBack]
    by_cases hi : k + 1 ≤ i
    · rw [if_pos hi]
      refine ⟨g, .eos, rfl, h, ?_⟩
      have : (Ss.take (k + 1)).flatten = [] := by
        rw [List.flatten_eq_nil_iff]
        intro S hS
        obtain ⟨j, hj⟩ := List.getElem?_of_mem hS
        rw [List.getElem?_take] at hj
        split at hj
        · exact hbefore j S (by omega) hj
        · cases hj
      rw [this]
      rfl
    · rw [if_neg hi]
      have hk : k < xs.length := by omega
      have hkS : k < Ss.length := by omega
      obtain ⟨c, hc, hL⟩ := h.loaded.get hk
      have hxk := List.getElem?_eq_getElem hk
      obtain ⟨c2, res, t1, t2, t3⟩ := hS k xs[k] c Ss[k] hxk (List.getElem?_eq_getElem hkS) hL
        (htimes k _ (by omega) (by omega) hxk)
      rw [hc]
      simp only
      rw [hL.getTime (ht _ (List.getElem_mem hk)), Res.bind_ok, Res.assert, if_pos (htimes k _ (by omega) (by omega) hxk)]
      simp only [Res.bind_ok]
      rw [t1, Res.bind_ok, List.take_succ_eq_append_getElem hkS, List.flatten_append, List.getLast?_append]
      simp only [List.flatten_cons, List.flatten_nil, List.append_nil]
      cases res with
      | some je =>
        obtain ⟨j, e⟩ := je
        obtain ⟨b1, b2⟩ := t3
        rw [b2]
        exact ⟨_, _, rfl, h.set hxk t2, c2, xs[k], with_get hc, hxk, b1, rfl⟩
      | none =>
        have : Ss[k].getLast? = none := t3
        rw [this]
        exact ih (h.set hxk t2) (by omega) fun j x h1 h2 h3 => htimes j x h1 (by omega) h3

/-! ### Seeking -/

/-- The places, cluster by cluster. -/
def spotsL : List (List SeenFrame) → List (List Spot)
  | [] => []
  | c :: cs => spotsIn cs c :: spotsL cs

theorem spots_eq (cs : List (List SeenFrame)) : spots cs = (spotsL cs).flatten := by
  induction cs with
  | nil => rfl
  | cons c cs ih => rw [spots, spotsL, List.flatten_cons, ih]

theorem spotsL_get : ∀ (cs : List (List SeenFrame)) (k : Nat), (spotsL cs)[k]? = (cs[k]?).map (spotsIn (cs.drop (k + 1))) := by
  intro cs
  induction cs with
  | nil => intro k; rfl
  | cons c cs ih =>
    intro k
    cases k with
    | zero => rfl
    | succ k => simpa [spotsL] using ih k

/-- The same for the clusters that do not begin too late. -/
def clusterL (t : ReadTrack) (scale : Nat) (time : Int) : List (Nat × List SeenFrame) → List (List Spot)
  | [] => []
  | (tc, c) :: cs =>
    (if ((tc * scale : Nat) : Int) ≤ time then
      match c.dropWhile fun f => !t.starts f with
      | [] => []
      | f :: fs => [(f :: fs, cs.map (·.2))]
    else []) :: clusterL t scale time cs

theorem clusterSpots_eq {t : ReadTrack} {time : Int} (cs : List (Nat × List SeenFrame)) :
    (((clusterSpots t cs).filter fun s => decide (((s.1 * scale : Nat) : Int) ≤ time)).getLast?).map (·.2) =
      (clusterL t scale time cs).flatten.getLast? := by
  rw [← List.getLast?_map]
  congr 1
  induction cs with
  | nil => rfl
  | cons c cs ih =>
    obtain ⟨tc, c⟩ := c
    rw [clusterSpots, clusterL, List.flatten_cons, ← ih]
    cases c.dropWhile fun f => !t.starts f with
    | nil => by_cases h : ((tc * scale : Nat) : Int) ≤ time <;> simp [h]
    | cons f fs =>
      by_cases h : ((tc * scale : Nat) : Int) ≤ time
      · simp only
        rw [List.filter_cons_of_pos (by simpa using h), if_pos h]
        rfl
      · simp only
        rw [List.filter_cons_of_neg (by simpa using h), if_neg h]
        rfl

theorem clusterL_get {t : ReadTrack} {time : Int} : ∀ (cs : List (Nat × List SeenFrame)) (k : Nat),
    (clusterL t scale time cs)[k]? = (cs[k]?).map fun c => if ((c.1 * scale : Nat) : Int) ≤ time then
      match c.2.dropWhile fun f => !t.starts f with
      | [] => []
      | f :: fs => [(f :: fs, (cs.drop (k + 1)).map (·.2))]
    else [] := by
  intro cs
  induction cs with
  | nil => intro k; rfl
  | cons c cs ih =>
    intro k
    cases k with
    | zero => rfl
    | succ k => simpa [clusterL] using ih k

theorem dropWhile_none_starts {t : ReadTrack} {c : List SeenFrame} (h : (c.dropWhile fun f => !t.starts f) = []) :
    ∀ f ∈ c, t.starts f = false := by
  induction c with
  | nil => intro f hf; cases hf
  | cons a c ih =>
    by_cases ha : t.starts a = true
    · rw [List.dropWhile_cons_of_neg (by simp [ha])] at h; cases h
    · rw [List.dropWhile_cons_of_pos (by simp [ha])] at h
      intro f hf
      rcases List.mem_cons.mp hf with rfl | hf
      · simpa using ha
      · exact ih h f hf

theorem firstSpot_at {t : ReadTrack} : ∀ (cs : List (List SeenFrame)) (n : Nat) {s : Spot}, firstSpot t n cs = some s →
    ∃ pre c, cs = pre ++ c :: s.2 ∧ ∀ d ∈ pre, ∀ f ∈ d, t.starts f = false := by
  intro cs
  induction cs with
  | nil => intro n s h; cases n <;> cases h
  | cons c cs ih =>
    intro n s h
    cases n with
    | zero => cases h
    | succ n =>
      rw [firstSpot] at h
      cases hd : c.dropWhile fun f => !t.starts f with
      | nil =>
        rw [hd] at h
        obtain ⟨pre, c', h1, h2⟩ := ih n h
        refine ⟨c :: pre, c', by rw [h1]; rfl, fun d hd' => ?_⟩
        rcases List.mem_cons.mp hd' with rfl | hd'
        · exact dropWhile_none_starts hd
        · exact h2 d hd'
      | cons f fs =>
        rw [hd] at h
        cases h
        exact ⟨[], c, rfl, fun d hd' => by cases hd'⟩

/-- The times and the frames of the clusters. -/
abbrev seenAt (scale : Nat) (xs : List (Nat × ClusterOf)) : List (Nat × List SeenFrame) :=
  xs.map fun x => (x.2.tc, x.2.frames.map (Frame.asWatched scale))

theorem seenAt_in (xs : List (Nat × ClusterOf)) : (seenAt scale xs).map (·.2) = seenIn scale xs := by
  simp [seenAt, seenIn, Function.comp_def]

/-- What the clusters offer on a video track. -/
theorem offers_video (hw : r.Whole) {t : ReadTrack} {fuel : Nat} {xs : List (Nat × ClusterOf)} {time : Int} (h0 : 0 ≤ time)
    (ht : ∀ x ∈ xs, Timed scale x) (hfr : ∀ x ∈ xs, x.2.frames.length < fuel)
    (hord : ((seenIn scale xs).flatten.filter t.isOf).Pairwise fun a b => a.time ≤ b.time) :
    Offers r scale fuel t time time xs ((spotsL (seenIn scale xs)).map (List.filter (early t scale time))) := by
  intro k x c S hx hS hL _
  have hmem := List.mem_of_getElem? hx
  rw [List.getElem?_map, spotsL_get, List.getElem?_map, hx] at hS
  simp only [Option.map_some, Option.some.injEq] at hS
  obtain ⟨c2, res, h1, h2, h3⟩ := entryLoop_time hw (ht x hmem) h0 (later := seenIn scale (xs.drop (k + 1))) (t := t) _ rfl
    (fuel := fuel) (i := 0) (by have := hfr x hmem; omega) (Nat.zero_le _) hL.to (best := none) (bs := none) rfl
  refine ⟨c2, res, h1, h2, ?_⟩
  rw [List.drop_zero, cand_eq, Option.or_none] at h3
  · have hdrop : (seenIn scale xs).drop (k + 1) = seenIn scale (xs.drop (k + 1)) := by rw [seenIn, ← List.map_drop]
    rw [hdrop] at hS
    rw [← hS]
    exact h3
  · have hs : (x.2.frames.map (Frame.asWatched scale)).Sublist (seenIn scale xs).flatten :=
      List.sublist_flatten_of_mem (List.mem_map_of_mem (f := fun x : Nat × ClusterOf => x.2.frames.map (Frame.asWatched scale)) hmem)
    refine (hord.sublist (hs.filter _)).imp fun h => ?_
    exact Int.mul_le_mul_of_nonneg_right h (by omega)

/-- What the clusters offer on another track. -/
theorem offers_other (hw : r.Whole) {t : ReadTrack} {fuel : Nat} {xs : List (Nat × ClusterOf)} {time : Int}
    (hfr : ∀ x ∈ xs, x.2.frames.length < fuel) :
    Offers r scale fuel t time (-1) xs (clusterL t scale time (seenAt scale xs)) := by
  intro k x c S hx hS hL htime
  have hmem := List.mem_of_getElem? hx
  rw [clusterL_get, List.getElem?_map, hx] at hS
  simp only [Option.map_some, Option.some.injEq] at hS
  rw [if_pos htime] at hS
  have hdrop : ((seenAt scale xs).drop (k + 1)).map (·.2) = seenIn scale (xs.drop (k + 1)) := by
    rw [seenAt, ← List.map_drop, ← seenAt, seenAt_in]
  rw [hdrop] at hS
  rcases entryLoop_first hw (t := t) (sc := some (scale : Int)) _ rfl (fuel := fuel) (i := 0) (by have := hfr x hmem; omega)
    (Nat.zero_le _) hL.to with ⟨c2, j, e, h1, h2, h3⟩ | ⟨c2, h1, h2, h3⟩
  · refine ⟨c2, some (j, e), h1, h2.loaded, h2, ?_⟩
    rw [List.drop_zero] at h3
    rw [h3, List.drop_eq_getElem_cons h2.len, List.map_cons] at hS
    simp only at hS
    rw [← hS, List.drop_eq_getElem_cons h2.len, List.map_cons]
    rfl
  · refine ⟨c2, none, h1, h2, ?_⟩
    rw [List.drop_zero] at h3
    rw [h3] at hS
    rw [← hS]
    rfl

theorem dropWhile_all_nil {p : SeenFrame → Bool} {l : List SeenFrame} (h : ∀ f ∈ l, p f = true) : l.dropWhile p = [] := by
  induction l with
  | nil => rfl
  | cons a l ih =>
    rw [List.dropWhile_cons_of_pos (h a List.mem_cons_self)]
    exact ih fun f hf => h f (List.mem_cons_of_mem _ hf)

theorem take_flatten {Ss : List (List Spot)} {lo : Nat} (h : ∀ (j : Nat) (S : List Spot), lo ≤ j → Ss[j]? = some S → S = []) :
    (Ss.take lo).flatten = Ss.flatten := by
  have : (Ss.drop lo).flatten = [] := by
    rw [List.flatten_eq_nil_iff]
    intro S hS
    obtain ⟨j, hj⟩ := List.getElem?_of_mem hS
    rw [List.getElem?_drop] at hj
    exact h (lo + j) S (by omega) hj
  conv => rhs; rw [← List.take_append_drop lo Ss, List.flatten_append, this, List.append_nil]

/-- `Seek`, for what the clusters offer. -/
theorem trackSeek_via (hw : r.Whole) (t : ReadTrack) {fuel : Nat} {xs : List (Nat × ClusterOf)} {g : ReadSegment} {time : Int}
    (h : Known r scale fuel g xs) (hinfo : g.info.map (·.timecodeScale) = some (scale : Int))
    (ht : ∀ x ∈ xs, Timed scale x) (hmono : (xs.map (·.2.tc)).Pairwise (· ≤ ·)) {Ss : List (List Spot)} (hlen : Ss.length = xs.length)
    (hoff : 0 ≤ time → Offers r scale fuel t time (if t.info.type = 1 then time else -1) xs Ss)
    (hnone : ∀ (k : Nat) (x : Nat × ClusterOf) (S : List Spot), xs[k]? = some x → Ss[k]? = some S →
      (∀ f ∈ x.2.frames.map (Frame.asWatched scale), t.starts f = false) → S = [])
    (hlate : ∀ (k : Nat) (x : Nat × ClusterOf) (S : List Spot), xs[k]? = some x → Ss[k]? = some S →
      time < ((x.2.tc * scale : Nat) : Int) → S = []) :
    ∃ g' p, g.trackSeek r fuel t time = .ok (g', p) ∧ Known r scale fuel g' xs ∧
      Stands r scale g' xs p ((firstSpot t 100 (seenIn scale xs)).bind fun s =>
        if time ≤ s.time scale then some s else Ss.flatten.getLast?) := by
  obtain ⟨g1, p, h1, h2, hi, h3⟩ := trackFirst_ok hw t h
  unfold ReadSegment.trackSeek
  rw [h1]
  simp only [succeeded, Res.bind_ok]
  cases p with
  | eos =>
    have : firstSpot t 100 (seenIn scale xs) = none := h3
    rw [this]
    exact ⟨g1, .eos, rfl, h2, rfl⟩
  | entry i idx e =>
    obtain ⟨c, x, hc, hx, hp, hs⟩ := h3
    have hmem := List.mem_of_getElem? hx
    have hT := ht x hmem
    have hidx := hp.len
    obtain ⟨c2, b1, b2, b3⟩ := hp.blockNs (List.getElem?_eq_getElem hp.len) hT
    simp only
    rw [hc]
    simp only
    rw [hi, hinfo, b1, Res.bind_ok]
    simp only
    have hfirst : Spot.time scale ((x.2.frames.drop idx).map (Frame.asWatched scale), seenIn scale (xs.drop (i + 1))) =
        (x.2.frames[idx].asWatched scale).time * scale := by
      rw [List.drop_eq_getElem_cons hp.len, List.map_cons]
      rfl
    rw [hs, Option.bind_some, hfirst]
    by_cases hle : time ≤ (x.2.frames[idx].asWatched scale).time * scale
    · rw [if_pos hle, if_pos hle]
      exact ⟨_, _, rfl, h2.set hx b2, c2, x, with_get hc, hx, hp.keep b2 b3, rfl⟩
    · rw [if_neg hle, if_neg hle, b2.getTime hT, Res.bind_ok]
      have hafter := Nat.mul_le_mul_right scale (hT.after _ (List.getElem_mem hp.len))
      have hnat : (x.2.frames[idx].asWatched scale).time * scale = ((x.2.frames[idx].timestamp / scale * scale : Nat) : Int) := by
        rw [Int.natCast_mul]; rfl
      have hxle : ((x.2.tc * scale : Nat) : Int) ≤ time := by omega
      have h0 : 0 ≤ time := by omega
      rw [Res.assert, if_pos hxle]
      simp only [Res.bind_ok]
      have hil : i < xs.length := (List.getElem?_eq_some_iff.mp hx).1
      have hcl : g1.clusters.length = xs.length := h2.loaded.length
      obtain ⟨m, m1, m2, m3, m4, m5⟩ := timeSearch_ok h2.loaded ht hmono time (i := i) _ (lo := i) (hi := g1.clusters.length)
        (fuel := g1.clusters.length) rfl (by omega) (Nat.le_refl i) (by omega) (by omega) (by omega) (by
          intro j y hj hy
          have := (List.getElem?_eq_some_iff.mp hy).1
          omega)
      rw [m1, Res.bind_ok]
      have him : i < m := by
        rcases Nat.lt_or_ge i m with hh | hh
        · exact hh
        · exact absurd (m5 i x hh hx) (by omega)
      rw [Res.assert, if_pos him]
      simp only [Res.bind_ok]
      obtain ⟨pre, c', hpre, hnost⟩ := firstSpot_at _ _ hs
      have hprelen : pre.length = i := by
        have h1 := congrArg List.length hpre
        simp [seenIn] at h1
        omega
      obtain ⟨g', p, s1, s2, s3⟩ := seekBack_ok ht (hoff h0) hlen (i := i) (by
        intro j S hj hS
        have hjx : j < xs.length := by omega
        refine hnone j xs[j] S (List.getElem?_eq_getElem hjx) hS ?_
        refine hnost _ ?_
        have h1 : (seenIn scale xs)[j]? = pre[j]? := by
          rw [hpre, List.getElem?_append_left (by omega)]
        rw [seenIn, List.getElem?_map, List.getElem?_eq_getElem hjx] at h1
        exact List.mem_of_getElem? h1.symm) m (h2.set hx b2) m3 m4
      refine ⟨g', p, s1, s2, ?_⟩
      rw [take_flatten] at s3
      · exact s3
      · intro j S hj hS
        have hjx : j < xs.length := by
          have := (List.getElem?_eq_some_iff.mp hS).1
          omega
        have hj' := List.getElem?_eq_getElem hjx
        exact hlate j xs[j] S hj' hS (m5 j _ hj hj')

theorem trackSeek_ok (hw : r.Whole) (t : ReadTrack) {fuel : Nat} {xs : List (Nat × ClusterOf)} {g : ReadSegment} (time : Int)
    (h : Known r scale fuel g xs) (hinfo : g.info.map (·.timecodeScale) = some (scale : Int))
    (ht : ∀ x ∈ xs, Timed scale x) (hmono : (xs.map (·.2.tc)).Pairwise (· ≤ ·))
    (hord : t.info.type = 1 → ((seenIn scale xs).flatten.filter t.isOf).Pairwise fun a b => a.time ≤ b.time) :
    ∃ g' p, g.trackSeek r fuel t time = .ok (g', p) ∧ Known r scale fuel g' xs ∧
      Stands r scale g' xs p (seekSpot t scale time (seenAt scale xs)) := by
  by_cases hv : t.info.type = 1
  · have := trackSeek_via hw t (time := time) h hinfo ht hmono
      (Ss := (spotsL (seenIn scale xs)).map (List.filter (early t scale time)))
      (by
        rw [List.length_map]
        have : ∀ cs : List (List SeenFrame), (spotsL cs).length = cs.length := by
          intro cs
          induction cs with
          | nil => rfl
          | cons c cs ih => rw [spotsL, List.length_cons, ih, List.length_cons]
        rw [this, seenIn, List.length_map])
      (fun h0 => by rw [if_pos hv]; exact offers_video hw h0 ht h.frames (hord hv))
      (by
        intro k x S hx hS hno
        rw [List.getElem?_map, spotsL_get, List.getElem?_map, hx] at hS
        simp only [Option.map_some, Option.some.injEq] at hS
        rw [← hS, List.filter_eq_nil_iff]
        intro s hs he
        obtain ⟨f, fs, rfl, hf, -⟩ := spotsIn_head hs
        rw [early_cons] at he
        simp [hno f hf] at he)
      (by
        intro k x S hx hS hlate
        rw [List.getElem?_map, spotsL_get, List.getElem?_map, hx] at hS
        simp only [Option.map_some, Option.some.injEq] at hS
        rw [← hS, List.filter_eq_nil_iff]
        intro s hs he
        obtain ⟨f, fs, rfl, hf, -⟩ := spotsIn_head hs
        obtain ⟨f0, hf0, rfl⟩ := List.mem_map.mp hf
        have h1 := Nat.mul_le_mul_right scale ((ht x (List.mem_of_getElem? hx)).after f0 hf0)
        have hnat : (f0.asWatched scale).time * scale = ((f0.timestamp / scale * scale : Nat) : Int) := by
          rw [Int.natCast_mul]; rfl
        rw [early_cons] at he
        have he2 := he.2
        omega)
    have heq : seekSpot t scale time (seenAt scale xs) = (firstSpot t 100 (seenIn scale xs)).bind fun s =>
        if time ≤ s.time scale then some s else ((spotsL (seenIn scale xs)).map (List.filter (early t scale time))).flatten.getLast? := by
      rw [seekSpot, if_pos hv, seenAt_in, videoSpot, ← List.filter_flatten, ← spots_eq]
      cases firstSpot t 100 (seenIn scale xs) <;> rfl
    rw [heq]
    exact this
  · have := trackSeek_via hw t (time := time) h hinfo ht hmono
      (Ss := clusterL t scale time (seenAt scale xs))
      (by
        have : ∀ cs : List (Nat × List SeenFrame), (clusterL t scale time cs).length = cs.length := by
          intro cs
          induction cs with
          | nil => rfl
          | cons c cs ih => rw [clusterL, List.length_cons, ih, List.length_cons]
        rw [this, seenAt, List.length_map])
      (fun _ => by rw [if_neg hv]; exact offers_other hw h.frames)
      (by
        intro k x S hx hS hno
        rw [clusterL_get, List.getElem?_map, hx] at hS
        simp only [Option.map_some, Option.some.injEq] at hS
        have : ((x.2.frames.map (Frame.asWatched scale)).dropWhile fun f => !t.starts f) = [] := by
          exact dropWhile_all_nil fun f hf => by simp [hno f hf]
        rw [this] at hS
        rw [← hS]
        simp)
      (by
        intro k x S hx hS hlate
        rw [clusterL_get, List.getElem?_map, hx] at hS
        simp only [Option.map_some, Option.some.injEq] at hS
        rw [if_neg (by omega)] at hS
        exact hS.symm)
    have heq : seekSpot t scale time (seenAt scale xs) = (firstSpot t 100 (seenIn scale xs)).bind fun s =>
        if time ≤ s.time scale then some s else (clusterL t scale time (seenAt scale xs)).flatten.getLast? := by
      rw [seekSpot, if_neg hv, otherSpot, seenAt_in, clusterSpots_eq]
      cases firstSpot t 100 (seenIn scale xs) <;> rfl
    rw [heq]
    exact this

/-! ### What is shown after a seek -/

theorem spots_mem {cs : List (List SeenFrame)} {s : Spot} (h : s ∈ spots cs) : s.size ≤ cs.flatten.length := by
  induction cs with
  | nil => cases h
  | cons c cs ih =>
    rw [spots] at h
    rw [List.flatten_cons, List.length_append]
    rcases List.mem_append.mp h with h | h
    · obtain ⟨f, fs, rfl, -, hl⟩ := spotsIn_head h
      unfold Spot.size
      rw [List.length_cons]
      simp only
      omega
    · have := ih h; omega

theorem clusterSpots_mem {t : ReadTrack} {cs : List (Nat × List SeenFrame)} {s : Nat × Spot} (h : s ∈ clusterSpots t cs) :
    s.2.size ≤ (cs.map (·.2)).flatten.length ∧ ∃ f fs, s.2.1 = f :: fs ∧ t.starts f = true := by
  induction cs with
  | nil => cases h
  | cons c cs ih =>
    obtain ⟨tc, c⟩ := c
    rw [List.map_cons, List.flatten_cons, List.length_append]
    have hl := dropWhile_len (p := fun f => !t.starts f) c
    rw [clusterSpots] at h
    cases hd : c.dropWhile fun f => !t.starts f with
    | nil => rw [hd] at h; have := ih h; exact ⟨by omega, this.2⟩
    | cons f fs =>
      rw [hd] at h
      rw [hd, List.length_cons] at hl
      rcases List.mem_cons.mp h with rfl | h
      · refine ⟨?_, f, fs, rfl, dropWhile_head hd⟩
        unfold Spot.size
        simp only [List.length_cons]
        omega
      · have := ih h; exact ⟨by omega, this.2⟩

theorem seekSpot_head {t : ReadTrack} {time : Int} {cs : List (Nat × List SeenFrame)} {s : Spot} (h : seekSpot t scale time cs = some s) :
    s.size ≤ (cs.map (·.2)).flatten.length ∧ ∃ f fs, s.1 = f :: fs ∧ t.starts f = true := by
  unfold seekSpot at h
  split at h
  · unfold videoSpot at h
    split at h
    · cases h
    · rename_i s' hs'
      split at h
      · cases h
        exact firstSpot_head _ _ s hs'
      · have hm := List.mem_of_mem_getLast? h
        obtain ⟨h1, h2⟩ := List.mem_filter.mp hm
        refine ⟨spots_mem h1, ?_⟩
        obtain ⟨l, later⟩ := s
        cases l with
        | nil => simp [Spot.starts] at h2
        | cons f fs =>
          simp only [Bool.and_eq_true] at h2
          exact ⟨f, fs, rfl, by simpa [Spot.starts] using h2.1⟩
  · unfold otherSpot at h
    split at h
    · cases h
    · rename_i s' hs'
      split at h
      · cases h
        exact firstSpot_head _ _ s hs'
      · rw [Option.map_eq_some_iff] at h
        obtain ⟨s0, h1, rfl⟩ := h
        have hm := List.mem_of_mem_getLast? h1
        exact clusterSpots_mem (List.mem_filter.mp hm).1

theorem playSeek_ok (hw : r.Whole) (t : ReadTrack) {fuel : Nat} {xs : List (Nat × ClusterOf)} {g : ReadSegment} (time : Int)
    (h : Known r scale fuel g xs) (hcount : (seenIn scale xs).flatten.length ≤ fuel)
    (hinfo : g.info.map (·.timecodeScale) = some (scale : Int))
    (ht : ∀ x ∈ xs, Timed scale x) (hmono : (xs.map (·.2.tc)).Pairwise (· ≤ ·))
    (hord : t.info.type = 1 → ((seenIn scale xs).flatten.filter t.isOf).Pairwise fun a b => a.time ≤ b.time) :
    playSeek r fuel t time g = .ok ((seekSpot t scale time (seenAt scale xs)).elim [] (Spot.shown t)) := by
  obtain ⟨g', p, h1, h2, h3⟩ := trackSeek_ok hw t time h hinfo ht hmono hord
  unfold playSeek
  rw [h1, Res.bind_ok]
  refine playTrack_ok hw fuel h2 h3 fun s hs => ?_
  obtain ⟨s1, f, fs, s2, s3⟩ := seekSpot_head hs
  rw [seenAt_in] at s1
  exact ⟨by omega, f, fs, s2, starts_isOf s3⟩

end

end Verif.Par

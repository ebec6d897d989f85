/-
The demuxer's walk through a file.
-/
import Verif.Lemmas.VttFrame
import Verif.Lemmas.ParserFile

namespace Verif.Vtt
open Verif Verif.Par Verif.Mux Verif.Spec Verif.Vtt.Spec

/-! ### The output files -/

theorem appendText_keys (k : Nat) (b : Bytes) : ∀ m : List VttFile, (appendText k b m).map (·.key) = m.map (·.key)
  | [] => rfl
  | x :: xs => by
    unfold appendText
    by_cases h : x.key = k
    · rw [if_pos h]; rfl
    · rw [if_neg h, List.map_cons, List.map_cons, appendText_keys k b xs]

/-- With every key once, all the text goes to the one file. -/
theorem appendText_map (k : Nat) (b : Bytes) : ∀ m : List VttFile, (m.map (·.key)).Nodup →
    appendText k b m = m.map fun x => { x with text := x.text ++ (if x.key = k then b else []) }
  | [], _ => rfl
  | x :: xs, hn => by
    rw [List.map_cons, List.nodup_cons] at hn
    unfold appendText
    by_cases h : x.key = k
    · rw [if_pos h, List.map_cons, if_pos h]
      congr 1
      have : ∀ ys : List VttFile, (∀ y ∈ ys, y.key ≠ k) →
          ys = ys.map fun x => { x with text := x.text ++ (if x.key = k then b else []) } := by
        intro ys
        induction ys with
        | nil => intro _; rfl
        | cons y ys ih =>
          intro hy
          rw [List.map_cons, if_neg (hy y (by simp)), List.append_nil, ← ih fun z hz => hy z (by simp [hz])]
      refine this xs fun y hy e => hn.1 ?_
      rw [h, ← e]
      exact List.mem_map_of_mem hy
    · rw [if_neg h, List.map_cons, if_neg h, List.append_nil, appendText_map k b xs hn.2]

theorem any_key {m : List VttFile} {k : Nat} : m.any (fun x => decide (x.key = k)) = true ↔ k ∈ m.map (·.key) := by
  rw [List.any_eq_true, List.mem_map]
  exact ⟨fun ⟨x, hx, h⟩ => ⟨x, hx, by simpa using h⟩, fun ⟨x, hx, h⟩ => ⟨x, hx, by simpa using h⟩⟩

/-- The files after these frames. -/
def taken (text : SeenFrame → Bytes) : List SeenFrame → List VttFile → List VttFile
  | [], m => m
  | s :: ss, m => taken text ss (appendText s.track (text s) m)

theorem taken_append (text : SeenFrame → Bytes) : ∀ (a b : List SeenFrame) (m : List VttFile),
    taken text (a ++ b) m = taken text b (taken text a m)
  | [], _, _ => rfl
  | s :: a, b, m => taken_append text a b _

theorem taken_keys (text : SeenFrame → Bytes) : ∀ (ss : List SeenFrame) (m : List VttFile),
    (taken text ss m).map (·.key) = m.map (·.key)
  | [], _ => rfl
  | s :: ss, m => by rw [taken, taken_keys text ss, appendText_keys]

theorem taken_map (text : SeenFrame → Bytes) : ∀ (ss : List SeenFrame) (m : List VttFile), (m.map (·.key)).Nodup →
    taken text ss m = m.map fun x => { x with text := x.text ++ (ss.filter (·.track = x.key)).flatMap text }
  | [], m, _ => by
    rw [taken]
    simp
  | s :: ss, m, hn => by
    rw [taken, taken_map text ss _ (by rw [appendText_keys]; exact hn), appendText_map _ _ _ hn, List.map_map]
    apply List.map_congr_left
    intro x _
    simp only [Function.comp_apply]
    by_cases h : s.track = x.key
    · rw [if_pos h.symm, List.filter_cons_of_pos (by simpa using h), List.flatMap_cons, List.append_assoc]
    · rw [if_neg (fun e => h e.symm), List.filter_cons_of_neg (by simpa using h), List.append_nil]

/-! ### Entries, clusters, the segment -/

/-- A frame that the demuxer can deal with. -/
structure Good (k : Int) (keys : List Nat) (text : SeenFrame → Bytes) (s : SeenFrame) : Prop where
  time : s.track ∈ keys → 0 ≤ s.time
  duration : s.track ∈ keys → 0 < s.duration
  range : s.track ∈ keys → s.time * k + s.duration * k ≤ 9223372036854775807
  text : s.track ∈ keys → demuxSeen k s = .ok (text s)

theorem appendText_none {k : Nat} (b : Bytes) : ∀ {m : List VttFile}, k ∉ m.map (·.key) → appendText k b m = m
  | [], _ => rfl
  | x :: xs, h => by
    rw [List.map_cons, List.mem_cons, not_or] at h
    rw [appendText, if_neg (fun e => h.1 e.symm), appendText_none b h.2]

theorem processEntry_ok {r : Rdr} {k tc : Int} {text : SeenFrame → Bytes} {e : Entry} {s : SeenFrame} {m : List VttFile} (hk : 0 < k)
    (h : watchEntry r tc e = .ok [s]) (hg : Good k (m.map (·.key)) text s) :
    processEntry r (some k) tc e m = .ok (appendText s.track (text s) m) := by
  obtain ⟨f, h1, h2, h3, h4, h5⟩ := watchEntry_one h
  unfold processEntry
  rw [← h4]
  by_cases hm : s.track ∈ m.map (·.key)
  · rw [if_pos (any_key.mpr hm)]
    cases e with
    | simple b =>
      have := hg.duration hm
      rw [h5] at this
      exact absurd this (by simp [shownDuration])
    | group b x y d =>
      simp only
      rw [demuxCue_seen h hk (hg.time hm) (hg.duration hm) (hg.range hm), hg.text hm, h4]
      rfl
  · rw [if_neg (fun e => hm (any_key.mp e)), appendText_none _ hm]

theorem processFrom_ok {r : Rdr} {scale tc : Nat} {text : SeenFrame → Bytes} {k : Int} (hk : 0 < k) (hw : r.Whole) :
    ∀ (fuel : Nat) {c : ReadCluster} {es : List Entry}
    {done rest : List Frame} {blocks : Bytes} {idx : Nat} {e : Entry} {m : List VttFile}, Partway r scale tc c es done rest blocks →
    es[idx]? = some e → es.length - idx + rest.length ≤ fuel →
    (∀ s ∈ (done ++ rest).map (Frame.asWatched scale), Good k (m.map (·.key)) text s) →
    processFrom r (some k) tc fuel c idx e m = .ok (taken text (((done ++ rest).drop idx).map (Frame.asWatched scale)) m) := by
  intro fuel
  induction fuel with
  | zero =>
    intro c es done rest blocks idx e m h hidx hfuel
    have := (List.getElem?_eq_some_iff.mp hidx).1
    omega
  | succ n ih =>
    intro c es done rest blocks idx e m h hidx hfuel hgood
    have hlt := (List.getElem?_eq_some_iff.mp hidx).1
    have hlen : es.length = done.length := by simpa using congrArg List.length h.shown
    have hshow : watchEntry r tc e = .ok [(done[idx]'(by omega)).asWatched scale] := by
      have := congrArg (fun l => l[idx]?) h.shown
      simp only [List.getElem?_map, hidx, List.getElem?_eq_getElem (show idx < done.length by omega), Option.map_some,
        Option.some.injEq] at this
      exact this
    have hdrop : (done ++ rest).drop idx = done[idx]'(by omega) :: (done ++ rest).drop (idx + 1) := by
      rw [List.drop_eq_getElem_cons (by simp; omega), List.getElem_append_left (by omega)]
    have hone := processEntry_ok (m := m) hk hshow
      (hgood _ (List.mem_map_of_mem (List.mem_append_left _ (List.getElem_mem (by omega)))))
    unfold processFrom
    rw [hone, Res.bind_ok, hdrop, List.map_cons, taken]
    unfold ReadCluster.getNext
    rw [h.entries, Res.assert_pos hlt, Res.bind_ok]
    cases hn : es[idx + 1]? with
    | some e' =>
      simp only [Res.bind_ok]
      rw [ih h hn (by omega) (by rw [appendText_keys]; exact hgood)]
    | none =>
      have hge := List.getElem?_eq_none_iff.mp hn
      have hes : es.length = idx + 1 := by omega
      cases rest with
      | nil =>
        obtain ⟨c', hp, -, -, -, -⟩ := h.parse_done hw
        rw [hp]
        simp only [Res.bind_ok, if_true]
        rw [List.drop_eq_nil_of_le (by simp; omega)]
        rfl
      | cons f fs =>
        have hb := h.isBlocks
        obtain ⟨b, bs, hbb, hB, hR⟩ : ∃ b bs, blocks = b ++ bs ∧ IsBlock tc scale f b ∧ Blocks tc scale fs bs := by
          generalize hq : blocks = q at hb
          cases hb with
          | cons hB hR => exact ⟨_, _, rfl, hB, hR⟩
        obtain ⟨c', e', hp, hP, -, -, -⟩ := h.parse_more hw hbb hB hR
        have hn' : (es ++ [e'])[idx + 1]? = some e' := by
          rw [List.getElem?_append_right (by omega)]
          rw [hes]
          simp
        rw [hp]
        simp only [Res.bind_ok]
        rw [if_neg (by decide), hP.entries, hn']
        simp only [Res.bind_ok]
        rw [ih hP hn' (by rw [List.length_append]; simp at hfuel ⊢; omega)
          (by rw [appendText_keys, List.append_assoc]; exact hgood), List.append_assoc]
        rfl

theorem processCluster_ok {r : Rdr} {scale tc fuel : Nat} {text : SeenFrame → Bytes} {k : Int} (hk : 0 < k)
    {c c' : ReadCluster} {es : List Entry} {done rest : List Frame} {m : List VttFile}
    {blocks : Bytes} (hw : r.Whole) (hl : c.load r = .ok c') (h : Partway r scale tc c' es done rest blocks)
    (hne : done ++ rest ≠ []) (hfuel : (done ++ rest).length ≤ fuel)
    (hgood : ∀ s ∈ (done ++ rest).map (Frame.asWatched scale), Good k (m.map (·.key)) text s) :
    processCluster r (some k) fuel c m = .ok (taken text ((done ++ rest).map (Frame.asWatched scale)) m) := by
  have hlen : es.length = done.length := by simpa using congrArg List.length h.shown
  rw [List.length_append] at hfuel
  unfold processCluster ReadCluster.getTimeCode
  rw [hl]
  simp only [Res.bind_ok]
  rw [h.timecode]
  simp only [Option.elim]
  unfold ReadCluster.getFirst
  rw [h.entries]
  cases he : es with
  | cons e es' =>
    simp only [Res.bind_ok]
    have := processFrom_ok hk hw fuel h (idx := 0) (e := e) (by rw [he]; rfl) (by omega) hgood
    rw [this]
    rfl
  | nil =>
    subst he
    have hd : done = [] := List.length_eq_zero_iff.mp (by simpa using hlen.symm)
    subst hd
    cases rest with
    | nil => exact absurd rfl hne
    | cons f fs =>
      have hb := h.isBlocks
      obtain ⟨b, bs, hbb, hB, hR⟩ : ∃ b bs, blocks = b ++ bs ∧ IsBlock tc scale f b ∧ Blocks tc scale fs bs := by
        generalize hq : blocks = q at hb
        cases hb with
        | cons hB hR => exact ⟨_, _, rfl, hB, hR⟩
      obtain ⟨c'', e', hp, hP, -, -, -⟩ := h.parse_more hw hbb hB hR
      simp only
      rw [hp]
      simp only [Res.bind_ok]
      rw [hP.entries]
      simp only [List.nil_append, List.head?_cons]
      have := processFrom_ok hk hw fuel hP (idx := 0) (e := e') rfl (by simp at hfuel ⊢; omega) (m := m) (by exact hgood)
      rw [this]
      rfl

theorem processClusters_ok {r : Rdr} {scale : Nat} {text : SeenFrame → Bytes} {k : Int} (hk : 0 < k) (hw : r.Whole) {g : ReadSegment}
    (hinfo : g.info.map (·.timecodeScale) = some k) {fss : List (Nat × ClusterOf)} (h : LoadedAll r scale g.clusters fss)
    {rounds : Nat} (hrounds : ∀ fs ∈ fss, fs.2.frames.length ≤ rounds) {keys : List Nat}
    (hgood : ∀ x ∈ fss, ∀ f ∈ x.2.frames, Good k keys text (f.asWatched scale)) :
    ∀ (n : Nat) {i fuel : Nat} {m : List VttFile}, fss.length - i = n → i < fss.length →
    n ≤ fuel → m.map (·.key) = keys → processClusters r g rounds fuel (some i) m =
      .ok (taken text (((fss.drop i).map (·.2.frames)).flatten.map (Frame.asWatched scale)) m) := by
  intro n
  induction n with
  | zero => intro i fuel m hn hi hf; omega
  | succ n ih =>
    intro i fuel m hn hi hf hm
    obtain ⟨f, rfl⟩ : ∃ f, fuel = f + 1 := ⟨fuel - 1, by omega⟩
    obtain ⟨c, hc, -, c', es, done, rest, blocks, hl, hP, hd, hne⟩ := h.get hi
    have hmem : fss[i] ∈ fss := List.getElem_mem hi
    have hwc : processCluster r (some k) rounds c m = .ok (taken text (fss[i].2.frames.map (Frame.asWatched scale)) m) := by
      rw [← hd]
      refine processCluster_ok hk hw hl hP (by rw [hd]; exact hne) (by rw [hd]; exact hrounds _ hmem) ?_
      intro s hs
      rw [hd] at hs
      obtain ⟨x, hx, rfl⟩ := List.mem_map.mp hs
      rw [hm]
      exact hgood _ hmem x hx
    rw [processClusters, hc]
    simp only
    rw [hinfo, hwc, Res.bind_ok, List.drop_eq_getElem_cons hi, List.map_cons, List.flatten_cons, List.map_append, taken_append]
    unfold ReadSegment.getNext
    rw [h.length]
    by_cases hlast : fss.length ≤ i + 1
    · rw [if_pos hlast, List.drop_eq_nil_of_le hlast]
      simp [processClusters, taken]
    · rw [if_neg hlast, ih (by omega) (by omega) (by omega) (by rw [taken_keys]; exact hm)]

theorem processAll_ok {r : Rdr} {scale : Nat} {text : SeenFrame → Bytes} {k : Int} (hk : 0 < k) (hw : r.Whole) {g : ReadSegment}
    (hinfo : g.info.map (·.timecodeScale) = some k) {fss : List (Nat × ClusterOf)} (h : LoadedAll r scale g.clusters fss)
    {fuel : Nat} (hfuel : ∀ fs ∈ fss, fs.2.frames.length ≤ fuel) (hf : fss.length ≤ fuel) {m : List VttFile}
    (hgood : ∀ x ∈ fss, ∀ f ∈ x.2.frames, Good k (m.map (·.key)) text (f.asWatched scale)) :
    processClusters r g fuel fuel g.getFirst m = .ok (taken text ((fss.map (·.2.frames)).flatten.map (Frame.asWatched scale)) m) := by
  unfold ReadSegment.getFirst
  rw [h.length]
  by_cases h0 : fss.length = 0
  · rw [if_pos h0, List.length_eq_zero_iff.mp h0]
    cases fuel <;> rfl
  · rw [if_neg h0, processClusters_ok hk hw hinfo h hfuel hgood fss.length (by omega) (by omega) (by omega) rfl]
    rfl

end Verif.Vtt

/-
Loading, jumping ahead and stepping in a file of the muxer.
-/
import Verif.Lemmas.ParserAhead
import Verif.Spec.Stepping

namespace Verif.Par
open Verif Spec Mux

section
variable {r : Rdr} {scale : Nat}

/-! ### Blocks -/

/-- The block with this index, as `GetFirst` and `GetNext` find it. -/
theorem nthBlock_ok (hw : r.Whole) {tc : Nat} : ∀ (n : Nat) {c : ReadCluster} {es : List Entry} {done rest : List Frame}
    {blocks : Bytes}, Partway r scale tc c es done rest blocks → done ++ rest ≠ [] → c.size.isSome →
    ∃ c2 es2 done2 rest2 blocks2, nthBlock r n c = .ok (c2, es2[n]?) ∧ Partway r scale tc c2 es2 done2 rest2 blocks2 ∧
      done2 ++ rest2 = done ++ rest ∧ c2.start = c.start ∧ c2.size = c.size ∧ (rest2 = [] ∨ n < es2.length) := by
  intro n
  induction n with
  | zero =>
    intro c es done rest blocks h hne hs
    have hlen : es.length = done.length := by simpa using congrArg List.length h.shown
    unfold nthBlock ReadCluster.getFirst
    rw [h.entries]
    cases he : es with
    | cons e es' => exact ⟨c, es, done, rest, blocks, by rw [he]; rfl, h, rfl, rfl, rfl, .inr (by rw [he]; simp)⟩
    | nil =>
      subst he
      have hd : done = [] := List.length_eq_zero_iff.mp (by simpa using hlen.symm)
      subst hd
      cases rest with
      | nil => exact absurd rfl hne
      | cons f fs =>
        have hb := h.isBlocks
        obtain ⟨b, bs, hbb, hB, hR⟩ : ∃ b bs, blocks = b ++ bs ∧ IsBlock tc scale f b ∧ Blocks tc scale fs bs := by
          generalize hq : blocks = q at hb
          cases hb with
          | cons hB hR => exact ⟨_, _, rfl, hB, hR⟩
        obtain ⟨c', e', hp, hP, h1, h2, -⟩ := h.parse_more hw hbb hB hR
        simp only
        rw [hp]
        simp only [Res.bind_ok]
        rw [hP.entries]
        exact ⟨c', _, _, fs, bs, rfl, hP, by simp, h1, h2, .inr (by simp)⟩
  | succ n ih =>
    intro c es done rest blocks h hne hs
    obtain ⟨c1, es1, d1, r1, b1, h1, h2, h3, h4, h5, h6⟩ := ih h hne hs
    have hlen : es1.length = d1.length := by simpa using congrArg List.length h2.shown
    rw [nthBlock, h1, Res.bind_ok]
    cases hn : es1[n]? with
    | none =>
      have hge := List.getElem?_eq_none_iff.mp hn
      refine ⟨c1, es1, d1, r1, b1, ?_, h2, h3, h4, h5, h6.imp id fun h => by omega⟩
      rw [List.getElem?_eq_none (by omega)]
    | some e =>
      have hlt := (List.getElem?_eq_some_iff.mp hn).1
      simp only
      unfold ReadCluster.getNext
      rw [h2.entries, Res.assert_pos hlt, Res.bind_ok]
      cases hn' : es1[n + 1]? with
      | some e' => exact ⟨c1, es1, d1, r1, b1, by rw [hn'], h2, h3, h4, h5, .inr (List.getElem?_eq_some_iff.mp hn').1⟩
      | none =>
        have hge := List.getElem?_eq_none_iff.mp hn'
        simp only
        cases r1 with
        | nil =>
          obtain ⟨c', hp, k1, k2, k3, k4⟩ := h2.parse_done hw
          rw [hp]
          simp only [Res.bind_ok, if_true]
          refine ⟨c', es1, d1, [], b1, by rw [hn'], k1, h3, k2.trans h4, ?_, .inl rfl⟩
          rw [k4, ← h5]
          have hb1 : b1 = [] := by cases h2.isBlocks; rfl
          rcases h2.ends with e | ⟨e, -⟩
          · rw [e, hb1]; rfl
          · rw [← h5, e] at hs; cases hs
        | cons f fs =>
          have hb := h2.isBlocks
          obtain ⟨b, bs, hbb, hB, hR⟩ : ∃ b bs, b1 = b ++ bs ∧ IsBlock tc scale f b ∧ Blocks tc scale fs bs := by
            generalize hq : b1 = q at hb
            cases hb with
            | cons hB hR => exact ⟨_, _, rfl, hB, hR⟩
          obtain ⟨c', e', hp, hP, k1, k2, -⟩ := h2.parse_more hw hbb hB hR
          have hn2 : (es1 ++ [e'])[n + 1]? = some e' := by
            rw [List.getElem?_append_right (by omega), show n + 1 - es1.length = 0 by omega]
            rfl
          rw [hp]
          simp only [Res.bind_ok]
          rw [if_neg (by decide), hP.entries, hn2]
          exact ⟨c', _, _, fs, bs, by rw [hn2], hP, by rw [List.append_assoc]; exact h3, k1.trans h4, k2.trans h5,
            .inr (by rw [List.length_append]; simp; omega)⟩

/-! ### Scanning -/

theorem parse_cluster (hw : r.Whole) {g : ReadSegment} (hst : g.stop = some r.data.length) {p len w F : Nat} {cl : ClusterOf} {blocks : Bytes}
    (h : ClusterIn r scale p true cl len w blocks) :
    scanLoop r (F + 1) g p = ({ g with pos := (p : Nat) }, .ok (some (p, p + 12, some (2 + w + blocks.length)))) ∧
    parseScan r (F + 1) g p = (g, .ok (some (p, p + 12, some (2 + w + blocks.length)))) := by
  have hr := hw.sane
  have hlen := h.total
  have hfit := h.fit
  have hsmall := h.small
  have hh := h.head
  rw [if_pos rfl] at hh
  have hst' : ∀ s ∈ g.stop, s = r.data.length := by rw [hst]; intro s hs; cases hs; rfl
  have hend : ¬ (atEnd r p = true ∨ reached g.stop p = true) := by
    unfold Rdr.Whole at hw
    rw [reached_neg (fun s hs => by have := hst' s hs; omega)]
    unfold atEnd
    simp
    omega
  have hu : ¬ 2 + w + blocks.length = unknownSize 8 := by unfold unknownSize; omega
  have hpast : ¬ (2 + w + blocks.length ≠ unknownSize 8 ∧ past g.stop (p + 4 + 8 + (2 + w + blocks.length)) = true) := by
    rw [past_neg (fun s hs => by have := hst' s hs; omega)]; simp
  have h1 : scanStep r g p = .ok (.cluster p (p + 12) (some (2 + w + blocks.length))) := by
    unfold scanStep
    rw [if_neg hend, hh.in1 hr (fun s hs => by have := hst' s hs; omega)]
    simp only [Res.bind_ok]
    rw [hh.readId]
    simp only [Res.orErr_ok, Res.bind_ok]
    rw [hh.in2 hr (fun s hs => by have := hst' s hs; omega)]
    simp only [Res.bind_ok]
    rw [hh.readSize]
    simp only [Res.bind_ok]
    rw [if_neg (by omega), Res.refuse_neg hpast, Res.bind_ok, if_neg (by decide), if_neg (by simp), if_neg hu]
  have h2 : parseStep r g p = .ok (.cluster p (p + 12) (some (2 + w + blocks.length))) := by
    unfold parseStep
    rw [if_neg hend, hh.in1 hr (fun s hs => by have := hst' s hs; omega)]
    simp only [Res.bind_ok]
    rw [hh.readId]
    simp only [Res.bind_ok]
    rw [hh.in2 hr (fun s hs => by have := hst' s hs; omega)]
    simp only [Res.bind_ok]
    rw [hh.readSize]
    simp only [Res.bind_ok]
    rw [if_neg (by omega), Res.refuse_neg hpast, Res.bind_ok, if_neg (by decide), if_neg (by simp), if_neg hu]
  rw [scanLoop, h1, parseScan, h2]
  exact ⟨rfl, rfl⟩

/-- Behind the clusters there is nothing, or the cues. -/
theorem parse_tail (hw : r.Whole) {g : ReadSegment} (hst : g.stop = some r.data.length) {q : Nat} {tl : Option (Nat × Nat)} (ht : TailAt r q tl) :
    (∃ cu, scanLoop r (r.data.length + 1 - q) g q = ({ g with pos := (r.data.length : Nat), cues := cu }, .ok none)) ∧
    parseScan r (r.data.length + 1 - q) g q = ({ g with cues := g.cues.or tl }, .ok none) := by
  have hr := hw.sane
  have hst' : ∀ s ∈ g.stop, s = r.data.length := by rw [hst]; intro s hs; cases hs; rfl
  have hat : ∀ g' : ReadSegment, atEnd r r.data.length = true ∨ reached g'.stop r.data.length = true := by
    intro g'
    left
    unfold atEnd Rdr.Whole at *
    simp
    omega
  have hfin : ∀ g' : ReadSegment, ∀ f, scanLoop r f g' r.data.length = ({ g' with pos := (r.data.length : Nat) }, .ok none) ∧
      parseScan r f g' r.data.length = (g', .ok none) := by
    intro g' f
    cases f with
    | zero => rw [scanLoop, parseScan, if_pos (hat g')]; exact ⟨rfl, rfl⟩
    | succ f =>
      have h1 : scanStep r g' r.data.length = .ok .finished := by unfold scanStep; rw [if_pos (hat g')]
      have h2 : parseStep r g' r.data.length = .ok .finished := by unfold parseStep; rw [if_pos (hat g')]
      rw [scanLoop, h1, parseScan, h2]
      exact ⟨rfl, rfl⟩
  rcases ht with ⟨rfl, rfl⟩ | ⟨m, payload, he, hend, rfl⟩
  · exact ⟨⟨_, (hfin g _).1⟩, by rw [Option.or_none]; exact (hfin g _).2⟩
  · have hd := he.head
    have hm := he.m1
    have hfits := he.fits
    obtain ⟨k, hk⟩ : ∃ k, r.data.length + 1 - q = k + 1 := ⟨r.data.length - q, by omega⟩
    have hend' : ¬ (atEnd r q = true ∨ reached g.stop q = true) := by
      unfold Rdr.Whole at hw
      rw [reached_neg (fun s hs => by have := hst' s hs; omega)]
      unfold atEnd
      simp
      omega
    have h1 : ∃ cu, scanStep r g q = .ok (.skip { g with cues := cu } r.data.length) := by
      unfold scanStep
      rw [if_neg hend', hd.in1 hr (fun s hs => by have := hst' s hs; omega)]
      simp only [Res.bind_ok]
      rw [hd.readId]
      simp only [Res.orErr_ok, Res.bind_ok]
      rw [hd.in2 hr (fun s hs => by have := hst' s hs; omega)]
      simp only [Res.bind_ok]
      rw [hd.readSize]
      simp only [Res.bind_ok]
      by_cases h0 : payload.length = 0
      · rw [if_pos h0]
        exact ⟨g.cues, by congr 2; omega⟩
      · rw [if_neg h0, Res.refuse_neg (by rw [past_neg (fun s hs => by have := hst' s hs; omega)]; simp), Res.bind_ok,
          if_pos trivial, Res.refuse_neg (by unfold unknownSize; omega), Res.bind_ok, hend]
        exact ⟨_, rfl⟩
    have h2 : parseStep r g q = .ok (.skip { g with cues := g.cues.or (if payload.length = 0 then none else some (q + 4 + m, payload.length)) }
        r.data.length) := by
      unfold parseStep
      rw [if_neg hend', hd.in1 hr (fun s hs => by have := hst' s hs; omega)]
      simp only [Res.bind_ok]
      rw [hd.readId]
      simp only [Res.bind_ok]
      rw [hd.in2 hr (fun s hs => by have := hst' s hs; omega)]
      simp only [Res.bind_ok]
      rw [hd.readSize]
      simp only [Res.bind_ok]
      by_cases h0 : payload.length = 0
      · rw [if_pos h0, if_pos h0, Option.or_none]
        congr 2; omega
      · rw [if_neg h0, if_neg h0, Res.refuse_neg (by rw [past_neg (fun s hs => by have := hst' s hs; omega)]; simp), Res.bind_ok,
          if_pos trivial, Res.refuse_neg (by unfold unknownSize; omega), Res.bind_ok, hend]
    obtain ⟨cu, h1⟩ := h1
    rw [hk, scanLoop, h1, parseScan, h2]
    exact ⟨⟨cu, (hfin _ _).1⟩, (hfin _ _).2⟩

/-! ### What is known -/

/-- An object that knows the size of its cluster: where that ends, the clusters behind it start. -/
def SizedObj (r : Rdr) (scale q : Nat) (cs : List (Nat × ClusterOf)) (c : ReadCluster) : Prop :=
  c.timecode.isSome ∧ ∃ n, c.size = some n ∧ ∀ pre x post, cs = pre ++ x :: post → x.1 = c.start → SizedChain r scale (c.start + n) post q

/-- The objects are those that the progress says, and the position is at the first cluster that has not been loaded. -/
structure Stepping (r : Rdr) (scale S q : Nat) (cs : List (Nat × ClusterOf)) (k : Progress) (a : Ahead) : Prop where
  start : a.seg.start = S
  stop : a.seg.stop = some r.data.length
  count : k.loaded ≤ cs.length
  loaded : LoadedAll r scale a.seg.clusters (cs.take k.loaded)
  ahead : ∃ ys, LoadedAll r scale a.preloaded ys ∧ (ys.map (·.1)).Pairwise (· < ·) ∧
    ∀ x, x ∈ ys ↔ x ∈ cs.drop k.loaded ∧ x.1 - S ∈ k.found
  pos : ∃ p e tl, a.seg.pos = (p : Nat) ∧ 0 < p ∧ SizedChain r scale p (cs.drop k.loaded) e ∧ TailAt r e tl
  objs : ∀ c ∈ a.table, c = { start := c.start, pos := c.start } ∨ SizedObj r scale q cs c
  looked : ∀ c ∈ a.table, c.start - S ∈ k.looked → SizedObj r scale q cs c
  held : ∀ o ∈ k.looked, o ∈ k.found ∨ ∃ x ∈ cs.take k.loaded, x.1 - S = o

theorem sorted_eq {cs : List (Nat × ClusterOf)} (hs : (cs.map (·.1)).Pairwise (· < ·)) {x y : Nat × ClusterOf} (hx : x ∈ cs) (hy : y ∈ cs)
    (h : x.1 = y.1) : x = y := by
  obtain ⟨i, hi⟩ := List.getElem?_of_mem hx
  obtain ⟨j, hj⟩ := List.getElem?_of_mem hy
  obtain ⟨i1, i2⟩ := List.getElem?_eq_some_iff.mp hi
  obtain ⟨j1, j2⟩ := List.getElem?_eq_some_iff.mp hj
  rw [List.pairwise_iff_getElem] at hs
  rcases Nat.lt_trichotomy i j with hlt | rfl | hlt
  · have := hs i j (by simpa using i1) (by simpa using j1) hlt
    simp only [List.getElem_map, i2, j2] at this
    omega
  · rw [hi] at hj; cases hj; rfl
  · have := hs j i (by simpa using j1) (by simpa using i1) hlt
    simp only [List.getElem_map, i2, j2] at this
    omega

theorem sorted_take {cs : List (Nat × ClusterOf)} (hs : (cs.map (·.1)).Pairwise (· < ·)) (n : Nat) :
    ∀ x ∈ cs.take n, ∀ y ∈ cs.drop n, x.1 < y.1 := by
  rw [← List.take_append_drop n cs, List.map_append, List.pairwise_append] at hs
  intro x hx y hy
  exact hs.2.2 _ (List.mem_map_of_mem hx) _ (List.mem_map_of_mem hy)

variable {S p0 q : Nat} {cs : List (Nat × ClusterOf)} {k : Progress} {a : Ahead} {tl : Option (Nat × Nat)}

/-- The table and the clusters it is for. -/
theorem Stepping.table (h : Stepping r scale S q cs k a) (hc : SizedChain r scale p0 cs q) :
    ∃ xs, LoadedAll r scale a.table xs ∧ (xs.map (·.1)).Pairwise (· < ·) ∧ xs.take k.loaded = cs.take k.loaded ∧
      a.seg.clusters.length = k.loaded ∧ xs.length = a.table.length ∧
      ∀ x, x ∈ xs ↔ x ∈ cs ∧ (x ∈ cs.take k.loaded ∨ x.1 - S ∈ k.found) := by
  obtain ⟨ys, h1, h2, h3⟩ := h.ahead
  have hcs := hc.sorted.1
  have hlen : (cs.take k.loaded).length = k.loaded := by rw [List.length_take]; have := h.count; omega
  have hall := h.loaded.append h1
  refine ⟨cs.take k.loaded ++ ys, hall, ?_, ?_, h.loaded.length.trans hlen, hall.length.symm, ?_⟩
  · rw [List.map_append, List.pairwise_append]
    refine ⟨?_, h2, ?_⟩
    · rw [← List.take_append_drop k.loaded cs, List.map_append, List.pairwise_append] at hcs
      exact hcs.1
    · intro x hx y hy
      obtain ⟨x, hx', rfl⟩ := List.mem_map.mp hx
      obtain ⟨y, hy', rfl⟩ := List.mem_map.mp hy
      exact sorted_take hcs k.loaded x hx' y ((h3 y).mp hy').1
  · rw [List.take_append_of_le_length (by omega), List.take_of_length_le (by omega)]
  · intro x
    rw [List.mem_append, h3]
    constructor
    · rintro (hx | ⟨hx, hf⟩)
      · exact ⟨List.mem_of_mem_take hx, .inl hx⟩
      · exact ⟨List.mem_of_mem_drop hx, .inr hf⟩
    · rintro ⟨hx, hx' | hf⟩
      · exact .inl hx'
      · rw [← List.take_append_drop k.loaded cs, List.mem_append] at hx
        exact hx.imp id fun h => ⟨h, hf⟩

/-- A cluster that the application has an object for. -/
theorem Stepping.slot (h : Stepping r scale S q cs k a) (hc : SizedChain r scale p0 cs q) (hS : S < p0) {x : Nat × ClusterOf} (hx : x ∈ cs)
    (hheld : x ∈ cs.take k.loaded ∨ x.1 - S ∈ k.found) :
    ∃ j c, slotOf a (x.1 - S) = .ok j ∧ a.table[j]? = some c ∧ Loaded r scale c x ∧ c.start = x.1 := by
  obtain ⟨xs, t1, t2, -, -, t5, t6⟩ := h.table hc
  have hge := hc.sorted.2 x hx
  obtain ⟨j, hj⟩ := List.getElem?_of_mem ((t6 x).mpr ⟨hx, hheld⟩)
  obtain ⟨hj1, hj2⟩ := List.getElem?_eq_some_iff.mp hj
  obtain ⟨c, c1, c2⟩ := t1.get hj1
  rw [hj2] at c2
  refine ⟨j, c, ?_, c1, c2, c2.1⟩
  obtain ⟨cj, ce⟩ := List.getElem?_eq_some_iff.mp c1
  unfold slotOf
  rw [h.start, show S + (x.1 - S) = x.1 by omega]
  rw [(List.findIdx?_eq_some_iff_getElem).mpr ⟨cj, by simp only [ce, c2.1, decide_true], fun i hi => ?_⟩]
  have hi' : i < a.table.length := by omega
  have hst := t1.starts
  have e1 : a.table[i].start = xs[i].1 := by
    have := congrArg (fun l => l[i]?) hst
    simp only [List.getElem?_map, List.getElem?_eq_getElem hi', List.getElem?_eq_getElem (show i < xs.length by omega),
      Option.map_some, Option.some.injEq] at this
    exact this
  rw [List.pairwise_iff_getElem] at t2
  have := t2 i j (by simp; omega) (by simpa using hj1) hi
  simp only [List.getElem_map, hj2] at this
  simp only [e1, decide_eq_true_eq]
  omega

theorem tell_slot {j : Nat} {c : ReadCluster} (h : a.table[j]? = some c) (hs : a.seg.start = S) :
    tell a (some j) = .ok (.cluster (c.start - S)) := by
  unfold tell
  simp only
  rw [h, hs]

/-- Progress in what has been found, when the object is there already. -/
theorem Stepping.hold (h : Stepping r scale S q cs k a) (hc : SizedChain r scale p0 cs q) (hS : S < p0) {x : Nat × ClusterOf} (hx : x ∈ cs)
    (hheld : x ∈ cs.take k.loaded ∨ x.1 - S ∈ k.found) : Stepping r scale S q cs { k with found := (x.1 - S) :: k.found } a := by
  obtain ⟨ys, h1, h2, h3⟩ := h.ahead
  refine ⟨h.start, h.stop, h.count, h.loaded, ⟨ys, h1, h2, fun y => ?_⟩, h.pos, h.objs, h.looked, fun o ho => (h.held o ho).imp (List.mem_cons_of_mem _) id⟩
  rw [h3, List.mem_cons]
  refine ⟨fun ⟨e1, e2⟩ => ⟨e1, .inr e2⟩, ?_⟩
  rintro ⟨e1, e2 | e2⟩
  · refine ⟨e1, ?_⟩
    have hy := List.mem_of_mem_drop e1
    have g1 := hc.sorted.2 x hx
    have g2 := hc.sorted.2 y hy
    have : y = x := sorted_eq hc.sorted.1 hy hx (by omega)
    subst this
    rcases hheld with h' | h'
    · have := sorted_take hc.sorted.1 k.loaded y h' y e1
      omega
    · exact h'
  · exact ⟨e1, e2⟩

/-- A cluster is preloaded, at its place among those that are. -/
theorem Stepping.insert (hw : r.Whole) (h : Stepping r scale S q cs k a) (hc : SizedChain r scale p0 cs q) (hS : S < p0)
    {x : Nat × ClusterOf} (hx : x ∈ cs.drop k.loaded) {m : Nat} (hm : m ≤ a.preloaded.length)
    (hlo : ∀ c ∈ a.preloaded.take m, c.start < x.1) (hhi : ∀ c ∈ a.preloaded.drop m, x.1 < c.start) {off : Int}
    (hoff : off = (x.1 : Int) - S) :
    ∃ a', a.preload off (a.seg.clusters.length + m) = (a', some (a.seg.clusters.length + m)) ∧
      Stepping r scale S q cs { k with found := (x.1 - S) :: k.found } a' ∧
      a'.table[a.seg.clusters.length + m]? = some { start := x.1, pos := x.1 } := by
  obtain ⟨ys, h1, h2, h3⟩ := h.ahead
  have hxc := List.mem_of_mem_drop hx
  have hge := hc.sorted.2 x hxc
  obtain ⟨pre, post, hsp⟩ := List.append_of_mem hxc
  have hc' := hc
  rw [hsp] at hc'
  obtain ⟨len, w, blocks, c1, c2, -, -⟩ := hc'.split
  have ht := (h1.take m).1.starts
  have hd := (h1.take m).2.starts
  have hp : a.preload off (a.seg.clusters.length + m) = ({ a with
      preloaded := a.preloaded.take m ++ ({ start := x.1, pos := x.1 } : ReadCluster) :: a.preloaded.drop m }, some (a.seg.clusters.length + m)) := by
    unfold Ahead.preload
    rw [if_neg (by omega), h.start]
    simp only [Nat.add_sub_cancel_left]
    rw [show S + off.toNat = x.1 by omega]
  have hcase : ∀ c ∈ (a.seg.clusters ++ (a.preloaded.take m ++ ({ start := x.1, pos := x.1 } : ReadCluster) :: a.preloaded.drop m)),
      c = { start := x.1, pos := x.1 } ∨ c ∈ a.table := by
    intro c hc'
    unfold Ahead.table
    simp only [List.mem_append, List.mem_cons] at hc' ⊢
    rcases hc' with h | h | h | h
    · exact .inr (.inl h)
    · exact .inr (.inr (List.mem_of_mem_take h))
    · exact .inl h
    · exact .inr (.inr (List.mem_of_mem_drop h))
  refine ⟨_, hp, ⟨h.start, h.stop, h.count, h.loaded, ⟨ys.take m ++ x :: ys.drop m, (h1.take m).1.append (.cons (c1.fresh hw c2) (h1.take m).2),
    ?_, fun y => ?_⟩, h.pos, fun c hc' => (hcase c hc').elim (fun e => .inl (by rw [e])) (h.objs c), fun c hc' hl => ?_,
    fun o ho => (h.held o ho).imp (List.mem_cons_of_mem _) id⟩, ?_⟩
  · have hs := h2
    rw [← List.take_append_drop m ys, List.map_append, List.pairwise_append] at hs
    rw [List.map_append, List.map_cons, List.pairwise_append, List.pairwise_cons]
    have hlo' : ∀ y ∈ (ys.take m).map (·.1), y < x.1 := by
      intro y hy
      rw [← ht] at hy
      obtain ⟨c, hc, rfl⟩ := List.mem_map.mp hy
      exact hlo c hc
    have hhi' : ∀ y ∈ (ys.drop m).map (·.1), x.1 < y := by
      intro y hy
      rw [← hd] at hy
      obtain ⟨c, hc, rfl⟩ := List.mem_map.mp hy
      exact hhi c hc
    refine ⟨hs.1, ⟨hhi', hs.2.1⟩, fun y hy z hz => ?_⟩
    rcases List.mem_cons.mp hz with rfl | hz
    · exact hlo' y hy
    · exact hs.2.2 y hy z hz
  · have hsplit : y ∈ ys.take m ++ x :: ys.drop m ↔ y = x ∨ y ∈ ys := by
      conv => rhs; rw [← List.take_append_drop m ys]
      simp only [List.mem_append, List.mem_cons]
      constructor
      · rintro (h | h | h)
        · exact .inr (.inl h)
        · exact .inl h
        · exact .inr (.inr h)
      · rintro (h | h | h)
        · exact .inr (.inl h)
        · exact .inl h
        · exact .inr (.inr h)
    rw [hsplit, h3, List.mem_cons]
    constructor
    · rintro (rfl | ⟨e1, e2⟩)
      · exact ⟨hx, .inl rfl⟩
      · exact ⟨e1, .inr e2⟩
    · rintro ⟨e1, e2 | e2⟩
      · have hy := List.mem_of_mem_drop e1
        have g2 := hc.sorted.2 y hy
        exact .inl (sorted_eq hc.sorted.1 hy hxc (by omega))
      · exact .inr ⟨e1, e2⟩
  · rcases hcase c hc' with rfl | hm'
    · exfalso
      rcases h.held _ hl with hf | ⟨y, hy, e⟩
      · have hxy := (h3 x).mpr ⟨hx, hf⟩
        rw [← List.take_append_drop m ys, List.mem_append] at hxy
        rcases hxy with hxy | hxy
        · have := List.mem_map_of_mem (f := (·.1)) hxy
          rw [← ht] at this
          obtain ⟨c, hc2, e⟩ := List.mem_map.mp this
          have := hlo c hc2
          omega
        · have := List.mem_map_of_mem (f := (·.1)) hxy
          rw [← hd] at this
          obtain ⟨c, hc2, e⟩ := List.mem_map.mp this
          have := hhi c hc2
          omega
      · have h4 := sorted_take hc.sorted.1 k.loaded y hy x hx
        have h5 := hc.sorted.2 y (List.mem_of_mem_take hy)
        simp only at e
        omega
    · exact h.looked c hm' hl
  · unfold Ahead.table
    simp only
    rw [List.getElem?_append_right (by omega), Nat.add_sub_cancel_left, List.getElem?_append_right (by rw [List.length_take]; omega),
      List.length_take, show m - min m a.preloaded.length = 0 by omega]
    rfl

/-- The search among the preloaded clusters. -/
theorem Stepping.found' (hw : r.Whole) (h : Stepping r scale S q cs k a) (hc : SizedChain r scale p0 cs q) (hS : S < p0)
    {x : Nat × ClusterOf} (hx : x ∈ cs.drop k.loaded) {off : Int} (hoff : off = (x.1 : Int) - S) :
    (∃ j c, searchLoop (a.preloaded.map fun c => some ⟨0, (c.start : Int) - S, 0⟩) a.preloaded.length off 0 a.preloaded.length =
      .ok (.inl j) ∧ a.table[a.seg.clusters.length + j]? = some c ∧ c.start = x.1 ∧
      Stepping r scale S q cs { k with found := (x.1 - S) :: k.found } a) ∨
    (∃ m, searchLoop (a.preloaded.map fun c => some ⟨0, (c.start : Int) - S, 0⟩) a.preloaded.length off 0 a.preloaded.length =
      .ok (.inr m) ∧ ∃ a' c, a.preload off (a.seg.clusters.length + m) = (a', some (a.seg.clusters.length + m)) ∧
      Stepping r scale S q cs { k with found := (x.1 - S) :: k.found } a' ∧
      a'.table[a.seg.clusters.length + m]? = some c ∧ c.start = x.1) := by
  obtain ⟨ys, h1, h2, h3⟩ := h.ahead
  have hxc := List.mem_of_mem_drop hx
  have hst := h1.starts
  have hge : ∀ c ∈ a.preloaded, S ≤ c.start := by
    intro c hc'
    have : c.start ∈ a.preloaded.map (·.start) := List.mem_map_of_mem hc'
    rw [hst] at this
    obtain ⟨y, hy, e⟩ := List.mem_map.mp this
    have := hc.sorted.2 y (List.mem_of_mem_drop ((h3 y).mp hy).1)
    omega
  rcases search_sorted (start := S) (by rw [hst]; exact h2) hge off with ⟨j, c, e1, e2, e3⟩ | ⟨m, e1, e2, e3, e4⟩
  · have hcm := hge c (List.mem_of_getElem? e2)
    refine .inl ⟨j, c, e1, ?_, by omega, ?_⟩
    · unfold Ahead.table
      rw [List.getElem?_append_right (by omega), Nat.add_sub_cancel_left]
      exact e2
    · have : c.start ∈ a.preloaded.map (·.start) := List.mem_map_of_mem (List.mem_of_getElem? e2)
      rw [hst] at this
      obtain ⟨y, hy, e⟩ := List.mem_map.mp this
      have hy' := (h3 y).mp hy
      have := sorted_eq hc.sorted.1 (List.mem_of_mem_drop hy'.1) hxc (by omega)
      subst this
      exact h.hold hc hS hxc (.inr hy'.2)
  · obtain ⟨a', i1, i2, i3⟩ := h.insert hw hc hS hx e2 (fun c hc' => by have := e3 c hc'; omega) (fun c hc' => by have := e4 c hc'; omega) hoff
    exact .inr ⟨m, e1, a', _, i1, i2, i3, rfl⟩

/-- `FindOrPreloadCluster`. -/
theorem Stepping.find (hw : r.Whole) (h : Stepping r scale S q cs k a) (hc : SizedChain r scale p0 cs q) (hS : S < p0)
    {x : Nat × ClusterOf} (hx : x ∈ cs) :
    ∃ a' j c, a.findOrPreload ((x.1 - S : Nat) : Int) = .ok (a', some j) ∧
      Stepping r scale S q cs { k with found := (x.1 - S) :: k.found } a' ∧ a'.table[j]? = some c ∧ c.start = x.1 := by
  obtain ⟨xs, t1, t2, t3, t4, t5, t6⟩ := h.table hc
  have hst := t1.starts
  have hxge := hc.sorted.2 x hx
  have hge : ∀ c ∈ a.table, S ≤ c.start := by
    intro c hc'
    have : c.start ∈ a.table.map (·.start) := List.mem_map_of_mem hc'
    rw [hst] at this
    obtain ⟨y, hy, e⟩ := List.mem_map.mp this
    have := hc.sorted.2 y ((t6 y).mp hy).1
    omega
  unfold Ahead.findOrPreload Ahead.locate
  rw [if_neg (by omega), h.start]
  rcases search_sorted (start := S) (by rw [hst]; exact t2) hge ((x.1 - S : Nat) : Int) with ⟨j, c, e1, e2, e3⟩ | ⟨m, e1, e2, e3, e4⟩
  · rw [e1]
    have hcm := hge c (List.mem_of_getElem? e2)
    refine ⟨a, j, c, rfl, ?_, e2, by omega⟩
    have : c.start ∈ a.table.map (·.start) := List.mem_map_of_mem (List.mem_of_getElem? e2)
    rw [hst] at this
    obtain ⟨y, hy, e⟩ := List.mem_map.mp this
    have hy' := (t6 y).mp hy
    have := sorted_eq hc.sorted.1 hy'.1 hx (by omega)
    subst this
    exact h.hold hc hS hx hy'.2
  · rw [e1, Res.bind_ok]
    simp only
    have hnot : x ∉ xs := by
      intro hm
      have : x.1 ∈ a.table.map (·.start) := by rw [hst]; exact List.mem_map_of_mem hm
      obtain ⟨c, hc', e⟩ := List.mem_map.mp this
      rw [← List.take_append_drop m a.table, List.mem_append] at hc'
      rcases hc' with hc' | hc'
      · have := e3 c hc'; omega
      · have := e4 c hc'; omega
    have hdrop : x ∈ cs.drop k.loaded := by
      have := hx
      rw [← List.take_append_drop k.loaded cs, List.mem_append] at this
      rcases this with h' | h'
      · exact absurd ((t6 x).mpr ⟨hx, .inl h'⟩) hnot
      · exact h'
    have hmn : a.seg.clusters.length ≤ m := by
      rcases Nat.lt_or_ge m a.seg.clusters.length with hlt | hge'
      · exfalso
        have hlt2 : m < a.table.length := by unfold Ahead.table; rw [List.length_append]; omega
        have hmem : a.table[m] ∈ a.table.drop m := by
          rw [List.drop_eq_getElem_cons hlt2]; exact List.mem_cons_self
        have h5 := e4 _ hmem
        have hmx : m < xs.length := by omega
        have h6 : a.table[m].start = xs[m].1 := by
          have := congrArg (fun l => l[m]?) hst
          simp only [List.getElem?_map, List.getElem?_eq_getElem hlt2, List.getElem?_eq_getElem hmx, Option.map_some,
            Option.some.injEq] at this
          exact this
        have h7 : xs[m] ∈ cs.take k.loaded := by
          rw [← t3]
          exact List.mem_of_getElem? (i := m) (by rw [List.getElem?_take, if_pos (by omega), List.getElem?_eq_getElem hmx])
        have := sorted_take hc.sorted.1 k.loaded _ h7 x hdrop
        omega
      · exact hge'
    have hml : m - a.seg.clusters.length ≤ a.preloaded.length := by
      have : a.table.length = a.seg.clusters.length + a.preloaded.length := by unfold Ahead.table; rw [List.length_append]
      omega
    obtain ⟨a', i1, i2, i3⟩ := h.insert hw hc hS hdrop (m := m - a.seg.clusters.length) hml (fun c hc' => by
        have := e3 c (by unfold Ahead.table; rw [List.take_append, List.mem_append]; exact .inr hc')
        omega) (fun c hc' => by
        have := e4 c (by unfold Ahead.table; rw [List.drop_append, List.mem_append]; exact .inr hc')
        omega) (off := ((x.1 - S : Nat) : Int)) (by omega)
    rw [show a.seg.clusters.length + (m - a.seg.clusters.length) = m by omega] at i1 i3
    rw [i1]
    exact ⟨a', m, _, rfl, i2, i3, rfl⟩

/-- The next cluster is loaded, or there is none. -/
theorem Stepping.load (hw : r.Whole) (h : Stepping r scale S q cs k a) (hc : SizedChain r scale p0 cs q) (hS : S < p0) {fuel : Nat} (hf : 0 < fuel) :
    (cs.drop k.loaded = [] ∧ ∃ a', a.loadCluster r fuel = (a', .ok false) ∧ Stepping r scale S q cs k a') ∨
    ∃ x post, cs.drop k.loaded = x :: post ∧ ∃ a' c, a.loadCluster r fuel = (a', .ok true) ∧
      Stepping r scale S q cs { k with loaded := k.loaded + 1 } a' ∧ a'.table[a'.seg.clusters.length - 1]? = some c ∧ c.start = x.1 := by
  obtain ⟨F, rfl⟩ : ∃ F, fuel = F + 1 := ⟨fuel - 1, by omega⟩
  obtain ⟨p, e, tl, hp, hp0, hch, ht⟩ := h.pos
  have hpp : a.seg.pos.toNat = p := by rw [hp]; rfl
  cases hcs : cs.drop k.loaded with
  | nil =>
    rw [hcs] at hch
    cases hch
    obtain ⟨⟨cu, h1⟩, -⟩ := parse_tail hw (g := a.seg) h.stop ht
    have hgo : a.doLoadCluster r = ({ a with seg := { a.seg with pos := (r.data.length : Nat), cues := cu } }, .ok 1) := by
      unfold Ahead.doLoadCluster
      rw [if_neg (by rw [hp]; omega), if_neg (by unfold Rdr.Whole at hw; omega), hpp, h1]
    refine .inl ⟨rfl, { a with seg := { a.seg with pos := (r.data.length : Nat), cues := cu } }, ?_, ?_⟩
    · rw [Ahead.loadCluster, hgo]
      rfl
    · exact ⟨h.start, h.stop, h.count, h.loaded, h.ahead, ⟨_, _, none, rfl, by have := ht.le; omega, by rw [hcs]; exact .nil, .inl ⟨rfl, rfl⟩⟩, h.objs,
        h.looked, h.held⟩
  | cons x post =>
    rw [hcs] at hch
    cases hch with
    | cons hcl hfine hrest =>
      rename_i len w cl blocks
      have hlen := hcl.total
      have hfit := hcl.fit
      obtain ⟨k', hk⟩ : ∃ k', r.data.length + 1 - p = k' + 1 := ⟨r.data.length - p, by omega⟩
      have h1 := (parse_cluster (g := a.seg) (F := k') hw h.stop hcl).1
      have hgp : { a.seg with pos := ((p : Nat) : Int) } = a.seg := by rw [← hp]
      rw [hgp] at h1
      have hgo : a.doLoadCluster r = a.takeCluster r p (p + 12) (some (2 + w + blocks.length)) true := by
        unfold Ahead.doLoadCluster
        rw [if_neg (by rw [hp]; omega), if_neg (by unfold Rdr.Whole at hw; omega), hpp, hk, h1]
        simp only
        rw [hcl.hasBlocks hw hfine (fun s hs => by rw [h.stop] at hs; cases hs; omega)]
      have hnp : ¬ past a.seg.stop (p + 12 + (2 + w + blocks.length)) = true := by
        rw [past_neg (fun s hs => by rw [h.stop] at hs; cases hs; omega)]; decide
      have hn : k.loaded < cs.length := by
        rcases Nat.lt_or_ge k.loaded cs.length with h' | h'
        · exact h'
        · rw [List.drop_eq_nil_of_le h'] at hcs; cases hcs
      have hdrop : cs.drop (k.loaded + 1) = post := by
        rw [← List.drop_drop, hcs]; rfl
      have hxn : cs[k.loaded]? = some (p, cl) := by
        have := congrArg (fun l => l[0]?) hcs
        simpa using this
      have htake : cs.take (k.loaded + 1) = cs.take k.loaded ++ [(p, cl)] := by
        rw [List.take_add_one, hxn]; rfl
      have hposeq : ((p + 12 + (2 + w + blocks.length) : Nat) : Int) = ((p + len : Nat) : Int) := by omega
      have hmin : ∀ y ∈ cs.drop k.loaded, p ≤ y.1 := by
        rw [hcs]
        intro y hy
        rcases List.mem_cons.mp hy with rfl | hy
        · exact Nat.le_refl _
        · have := hrest.sorted.2 y hy; omega
      have hlater : ∀ y ∈ post, p < y.1 := fun y hy => by have := hrest.sorted.2 y hy; omega
      obtain ⟨ys, y1, y2, y3⟩ := h.ahead
      have hiff : ∀ y, y ∈ cs.drop (k.loaded + 1) ↔ y ∈ cs.drop k.loaded ∧ y.1 ≠ p := by
        intro y
        rw [hdrop, hcs, List.mem_cons]
        constructor
        · intro hy
          have := hlater y hy
          exact ⟨.inr hy, by omega⟩
        · rintro ⟨rfl | hy, hne⟩
          · exact absurd rfl hne
          · exact hy
      have hheld : ∀ o ∈ k.looked, o ∈ k.found ∨ ∃ x ∈ cs.take (k.loaded + 1), x.1 - S = o := fun o ho =>
        (h.held o ho).imp id fun ⟨x, hx, e⟩ => ⟨x, by rw [htake]; exact List.mem_append_left _ hx, e⟩
      -- the cluster is preloaded, or it is not
      by_cases hpre : ∃ c ps, a.preloaded = c :: ps ∧ c.start = p
      · obtain ⟨c, ps, hps, hcp⟩ := hpre
        rw [hps] at y1
        cases y1 with
        | cons yl yr =>
          rename_i y ys'
          have hy1 : y.1 = p := by rw [← yl.1]; exact hcp
          have hyx : y = (p, cl) := sorted_eq hc.sorted.1 (List.mem_of_mem_drop ((y3 y).mp List.mem_cons_self).1)
            (List.mem_of_mem_drop (by rw [hcs]; exact List.mem_cons_self)) hy1
          have hgo2 : a.doLoadCluster r = ({ seg := { a.seg with
              clusters := a.seg.clusters ++ [c], pos := ((p + 12 + (2 + w + blocks.length) : Nat) : Int) }, preloaded := ps }, .ok 0) := by
            rw [hgo]
            unfold Ahead.takeCluster
            rw [hps]
            simp only
            have := (hc.sorted.2 (p, cl) (List.mem_of_mem_drop (by rw [hcs]; exact List.mem_cons_self)))
            rw [if_neg (by rw [h.start]; simp only at this; omega), if_pos hcp, if_neg (by decide), if_neg hnp]
          have htab : ∀ d, d ∈ (a.seg.clusters ++ [c]) ++ ps → d ∈ a.table := by
            intro d hd
            unfold Ahead.table
            rw [hps]
            simpa using hd
          refine .inr ⟨(p, cl), post, rfl, { seg := { a.seg with
              clusters := a.seg.clusters ++ [c], pos := ((p + 12 + (2 + w + blocks.length) : Nat) : Int) }, preloaded := ps }, c, ?_, ?_, ?_, hcp⟩
          · rw [Ahead.loadCluster, hgo2]
            rfl
          · refine ⟨h.start, h.stop, hn, ?_, ⟨ys', yr, ?_, ?_⟩, ⟨p + len, e, tl, hposeq, by omega, ?_, ht⟩, fun d hd => h.objs d (htab d hd),
              fun d hd => h.looked d (htab d hd), hheld⟩
            · simp only
              rw [htake]
              exact h.loaded.snoc (hyx ▸ yl)
            · exact (List.pairwise_cons.mp y2).2
            · intro z
              simp only
              rw [hiff]
              have hz := y3 z
              rw [List.mem_cons] at hz
              constructor
              · intro hm
                have h2 := (List.pairwise_cons.mp y2).1 z.1 (List.mem_map_of_mem hm)
                simp only at h2
                have := hz.mp (.inr hm)
                exact ⟨⟨this.1, by omega⟩, this.2⟩
              · rintro ⟨⟨m1, m2⟩, m3⟩
                rcases hz.mpr ⟨m1, m3⟩ with rfl | h'
                · exact absurd hy1 m2
                · exact h'
            · simp only
              rw [hdrop]; exact hrest
          · unfold Ahead.table
            simp
      · have hnot : ∀ y ∈ ys, y.1 ≠ p := by
          intro y hy hyp
          cases hps : a.preloaded with
          | nil =>
            rw [hps] at y1
            cases y1
            cases hy
          | cons c ps =>
            rw [hps] at y1
            cases y1 with
            | cons yl yr =>
              rename_i z zs
              have hz := hmin z ((y3 z).mp List.mem_cons_self).1
              rcases List.mem_cons.mp hy with rfl | hy
              · exact hpre ⟨c, ps, hps, yl.1.trans hyp⟩
              · have := (List.pairwise_cons.mp y2).1 y.1 (List.mem_map_of_mem hy)
                simp only at this
                omega
        have hseg : a.seg.takeCluster r p (p + 12) (some (2 + w + blocks.length)) true = ({ a.seg with
            clusters := a.seg.clusters ++ [({ start := p, pos := p } : ReadCluster)],
            pos := ((p + 12 + (2 + w + blocks.length) : Nat) : Int) }, .ok 0) := by
          unfold ReadSegment.takeCluster
          rw [if_pos rfl]
          exact congrArg (Prod.mk _) (if_neg hnp)
        have hgo2 : a.doLoadCluster r = ({ a with seg := { a.seg with
            clusters := a.seg.clusters ++ [({ start := p, pos := p } : ReadCluster)],
            pos := ((p + 12 + (2 + w + blocks.length) : Nat) : Int) } }, .ok 0) := by
          rw [hgo]
          unfold Ahead.takeCluster
          rw [hseg]
          cases hps : a.preloaded with
          | nil => rfl
          | cons c ps =>
            have hcs' : c.start ≠ p := fun h' => hpre ⟨c, ps, hps, h'⟩
            have hcS : S ≤ c.start := by
              rw [hps] at y1
              cases y1 with
              | cons yl yr =>
                rename_i z zs
                have hz := hc.sorted.2 z (List.mem_of_mem_drop ((y3 z).mp List.mem_cons_self).1)
                have := yl.1
                omega
            simp only
            rw [if_neg (by rw [h.start]; omega), if_neg hcs']
        have hcase : ∀ d, d ∈ (a.seg.clusters ++ [({ start := p, pos := p } : ReadCluster)]) ++ a.preloaded →
            d = { start := p, pos := p } ∨ d ∈ a.table := by
          intro d hd
          unfold Ahead.table
          simp only [List.mem_append, List.mem_cons, List.not_mem_nil, or_false] at hd ⊢
          rcases hd with (hd | hd) | hd
          · exact .inr (.inl hd)
          · exact .inl hd
          · exact .inr (.inr hd)
        refine .inr ⟨(p, cl), post, rfl, { a with seg := { a.seg with
            clusters := a.seg.clusters ++ [({ start := p, pos := p } : ReadCluster)],
            pos := ((p + 12 + (2 + w + blocks.length) : Nat) : Int) } }, { start := p, pos := p }, ?_, ?_, ?_, rfl⟩
        · rw [Ahead.loadCluster, hgo2]
          rfl
        · refine ⟨h.start, h.stop, hn, ?_, ⟨ys, y1, y2, ?_⟩, ⟨p + len, e, tl, hposeq, by omega, ?_, ht⟩,
            fun d hd => (hcase d hd).elim (fun e => .inl (by rw [e])) (h.objs d), fun d hd hl => ?_, hheld⟩
          · simp only
            rw [htake]
            exact h.loaded.snoc (hcl.fresh hw hfine)
          · intro z
            simp only
            rw [hiff, y3 z]
            constructor
            · intro hm
              exact ⟨⟨hm.1, hnot z ((y3 z).mpr hm)⟩, hm.2⟩
            · rintro ⟨⟨m1, -⟩, m3⟩
              exact ⟨m1, m3⟩
          · simp only
            rw [hdrop]; exact hrest
          · rcases hcase d hd with rfl | hd'
            · exfalso
              have hmem : (p, cl) ∈ cs.drop k.loaded := by rw [hcs]; exact List.mem_cons_self
              rcases h.held _ hl with hf | ⟨y, hy, e⟩
              · exact hnot (p, cl) ((y3 _).mpr ⟨hmem, hf⟩) rfl
              · have h4 := sorted_take hc.sorted.1 k.loaded y hy _ hmem
                have h5 := hc.sorted.2 y (List.mem_of_mem_take hy)
                simp only at e h4
                omega
            · exact h.looked d hd' hl
        · unfold Ahead.table
          simp

/-- Stepping from a preloaded cluster to the next one. -/
theorem Stepping.step (hw : r.Whole) (h : Stepping r scale S q cs k a) (hc : SizedChain r scale p0 cs q) (ht : TailAt r q tl) (hS : S < p0)
    {pre post : List (Nat × ClusterOf)} {x : Nat × ClusterOf} (he : cs = pre ++ x :: post) (hx : x ∉ cs.take k.loaded) {j : Nat} {c : ReadCluster}
    (hj : a.table[j]? = some c) (hcx : c.start = x.1) :
    a.seg.clusters.length ≤ j ∧ a.preloaded[j - a.seg.clusters.length]? = some c ∧ x ∈ cs.drop k.loaded ∧
    (∀ y ∈ post, y ∈ cs.drop k.loaded) ∧
    ((post = [] ∧ a.getNext r j = .ok (a, none)) ∨
      ∃ y post' a' j' c', post = y :: post' ∧ a.getNext r j = .ok (a', some j') ∧
        Stepping r scale S q cs { k with found := (y.1 - S) :: k.found } a' ∧ a'.table[j']? = some c' ∧ c'.start = y.1) := by
  obtain ⟨xs, t1, t2, t3, t4, t5, t6⟩ := h.table hc
  have hxc : x ∈ cs := by rw [he]; simp
  have hxd : x ∈ cs.drop k.loaded := by
    have := hxc
    rw [← List.take_append_drop k.loaded cs, List.mem_append] at this
    exact this.resolve_left hx
  obtain ⟨hj1, hj2⟩ := List.getElem?_eq_some_iff.mp hj
  have hjx : xs[j]'(by omega) = x := by
    have h1 := congrArg (fun l => l[j]?) t1.starts
    simp only [List.getElem?_map, hj, List.getElem?_eq_getElem (show j < xs.length by omega), Option.map_some, Option.some.injEq] at h1
    exact sorted_eq hc.sorted.1 ((t6 _).mp (List.getElem_mem (by omega))).1 hxc (by omega)
  have hjn : a.seg.clusters.length ≤ j := by
    rcases Nat.lt_or_ge j a.seg.clusters.length with hlt | hge
    · exfalso
      refine hx ?_
      rw [← t3, ← hjx]
      exact List.mem_of_getElem? (i := j) (by rw [List.getElem?_take, if_pos (by omega), List.getElem?_eq_getElem (by omega)])
    · exact hge
  have hpj : a.preloaded[j - a.seg.clusters.length]? = some c := by
    unfold Ahead.table at hj
    rw [List.getElem?_append_right hjn] at hj
    exact hj
  have hsorted := hc.sorted.1
  have hpost : ∀ y ∈ post, y ∈ cs.drop k.loaded := by
    intro y hy
    have hyc : y ∈ cs := by rw [he]; simp [hy]
    have := hyc
    rw [← List.take_append_drop k.loaded cs, List.mem_append] at this
    rcases this with h' | h'
    · exfalso
      have h1 := sorted_take hsorted k.loaded y h' x hxd
      rw [he, List.map_append, List.map_cons, List.pairwise_append, List.pairwise_cons] at hsorted
      have h2 := hsorted.2.1.1 y.1 (List.mem_map_of_mem hy)
      omega
    · exact h'
  refine ⟨hjn, hpj, hxd, hpost, ?_⟩
  have hc' := hc
  rw [he] at hc'
  obtain ⟨len, w, blocks, h1, h2, h3, h4⟩ := hc'.split
  have hn := nextPlace_ok hw h.stop rfl h1 h4 ht hcx
  unfold Ahead.getNext
  rw [if_neg (by omega), hpj]
  simp only
  rw [hn, Res.bind_ok]
  cases post with
  | nil => exact .inl ⟨rfl, rfl⟩
  | cons y post' =>
    right
    have hyd := hpost y (by simp)
    have := hc.sorted.2 y (List.mem_of_mem_drop hyd)
    simp only [List.head?_cons, Option.map_some]
    rw [h.start, if_neg (by omega)]
    rcases h.found' hw hc hS hyd (off := (y.1 : Int) - S) rfl with ⟨j', c', s1, s2, s3, s4⟩ | ⟨m, s1, a', c', s2, s3, s4, s5⟩
    · rw [s1]
      exact ⟨y, post', a, _, c', rfl, by rw [Res.bind_ok], s4, s2, s3⟩
    · rw [s1, Res.bind_ok]
      simp only
      rw [s2]
      exact ⟨y, post', a', _, c', rfl, rfl, s3, s4, s5⟩

/-- The same with `ParseNext`, for an object that knows its size. -/
theorem Stepping.parse (hw : r.Whole) (h : Stepping r scale S q cs k a) (hc : SizedChain r scale p0 cs q) (ht : TailAt r q tl) (hS : S < p0)
    {pre post : List (Nat × ClusterOf)} {x : Nat × ClusterOf} (he : cs = pre ++ x :: post) (hx : x ∉ cs.take k.loaded) {j : Nat} {c : ReadCluster}
    (hj : a.table[j]? = some c) (hcx : c.start = x.1) (hsz : SizedObj r scale q cs c) {fuel : Nat} (hfuel : 0 < fuel) :
    (post = [] ∧ ∃ a', a.parseNext r fuel j = (a', .ok none) ∧ Stepping r scale S q cs k a') ∨
      ∃ y post' a' j' c', post = y :: post' ∧ a.parseNext r fuel j = (a', .ok (some j')) ∧
        Stepping r scale S q cs { k with found := (y.1 - S) :: k.found } a' ∧ a'.table[j']? = some c' ∧ c'.start = y.1 := by
  obtain ⟨hjn, hpj, hxd, hpost, -⟩ := h.step hw hc ht hS he hx hj hcx
  obtain ⟨F, rfl⟩ : ∃ F, fuel = F + 1 := ⟨fuel - 1, by omega⟩
  obtain ⟨-, n, hn, hch⟩ := hsz
  have hch := hch pre x post he hcx.symm
  obtain ⟨p, -, -, hp, hp0, -, -⟩ := h.pos
  have hgo : a.parseNext r (F + 1) j = a.parseOn r (F + 1) (c.start + n) := by
    unfold Ahead.parseNext
    rw [if_neg (by omega), hpj]
    simp only
    rw [if_neg (by rw [hp]; unfold Rdr.Whole at hw; omega)]
    unfold nextEnd
    rw [hn]
  rw [hgo]
  have hwhole : ¬ (r.total ≥ 0 ∧ (r.data.length : Int) > r.total) := by unfold Rdr.Whole at hw; omega
  cases post with
  | nil =>
    cases hch
    have h1 := (parse_tail hw (g := a.seg) h.stop ht).2
    refine .inl ⟨rfl, { a with seg := { a.seg with cues := a.seg.cues.or tl } }, ?_, ?_⟩
    · unfold Ahead.parseOn Ahead.doParseNext
      rw [if_neg hwhole, h1]
    · exact ⟨h.start, h.stop, h.count, h.loaded, h.ahead, h.pos, h.objs, h.looked, h.held⟩
  | cons y post' =>
    right
    have hyd := hpost y (by simp)
    have hyge := hc.sorted.2 y (List.mem_of_mem_drop hyd)
    generalize c.start + n = P at hch
    cases hch with
    | cons hcl hfine hrest =>
      rename_i len w cl blocks
      have hlen := hcl.total
      have hfit := hcl.fit
      obtain ⟨k', hk⟩ : ∃ k', r.data.length + 1 - P = k' + 1 := ⟨r.data.length - P, by omega⟩
      have h1 := (parse_cluster (g := a.seg) (F := k') hw h.stop hcl).2
      simp only at hyge
      rcases h.found' hw hc hS hyd (off := (P : Int) - S) rfl with ⟨j', c', s1, s2, s3, s4⟩ | ⟨m, s1, a', c', s2, s3, s4, s5⟩
      · refine ⟨(P, cl), post', a, _, c', rfl, ?_, s4, s2, s3⟩
        unfold Ahead.parseOn Ahead.doParseNext
        rw [if_neg hwhole, hk, h1]
        simp only
        rw [h.start, if_neg (by omega), s1]
      · refine ⟨(P, cl), post', a', a.seg.clusters.length + m, c', rfl, ?_, s3, s4, s5⟩
        unfold Ahead.parseOn Ahead.doParseNext
        rw [if_neg hwhole, hk, h1]
        simp only
        rw [h.start, if_neg (by omega), s1]
        simp only
        unfold Ahead.parseTake
        rw [hcl.hasBlocks hw hfine (fun s hs => by rw [h.stop] at hs; cases hs; omega)]
        simp only
        rw [h.start, s2]

/-! ### The answers -/

/-- The clusters of a file as the application sees them. -/
def offsets (scale S : Nat) (cs : List (Nat × ClusterOf)) : List (Nat × List SeenFrame) :=
  cs.map fun x => (x.1 - S, x.2.frames.map (Frame.asWatched scale))

theorem offsets_mem {off : Nat} : off ∈ (offsets scale S cs).map (·.1) ↔ ∃ x ∈ cs, x.1 - S = off := by
  unfold offsets
  simp only [List.map_map, List.mem_map, Function.comp]

theorem offsets_take (n : Nat) : (offsets scale S cs).take n = offsets scale S (cs.take n) := by
  unfold offsets; rw [List.map_take]

theorem dropWhile_to {L pre post : List (Nat × ClusterOf)} {x : Nat × ClusterOf} (hs : (L.map (·.1)).Pairwise (· < ·)) (hge : ∀ y ∈ L, S ≤ y.1)
    (he : L = pre ++ x :: post) :
    (offsets scale S L).dropWhile (fun c => decide (c.1 ≠ x.1 - S)) = offsets scale S (x :: post) ∧
    (offsets scale S L).find? (fun c => decide (c.1 = x.1 - S)) = some (x.1 - S, x.2.frames.map (Frame.asWatched scale)) := by
  subst he
  induction pre with
  | nil => simp [offsets]
  | cons y pre ih =>
    rw [List.cons_append, List.map_cons, List.pairwise_cons] at hs
    obtain ⟨i1, i2⟩ := ih hs.2 (fun z hz => hge z (by simp at hz ⊢; exact .inr hz))
    have h1 := hs.1 x.1 (List.mem_map_of_mem (by simp))
    have h2 := hge y (by simp)
    have h3 := hge x (by simp)
    have hne : y.1 - S ≠ x.1 - S := by omega
    unfold offsets at i1 i2 ⊢
    rw [List.cons_append, List.map_cons, List.dropWhile_cons, List.find?_cons]
    simp only [hne, ne_eq, not_false_eq_true, decide_true, decide_false, if_true]
    exact ⟨i1, i2⟩

theorem following_of {L pre post : List (Nat × ClusterOf)} {x : Nat × ClusterOf} (hs : (L.map (·.1)).Pairwise (· < ·)) (hge : ∀ y ∈ L, S ≤ y.1)
    (he : L = pre ++ x :: post) : following (offsets scale S L) (x.1 - S) = post.head?.map fun y => y.1 - S := by
  unfold following
  rw [(dropWhile_to hs hge he).1]
  cases post <;> rfl

theorem put_table {j : Nat} {c : ReadCluster} (hj : j < a.table.length) : (a.put j c).table = a.table.set j c := by
  unfold Ahead.put Ahead.table at *
  rw [List.length_append] at hj
  split
  · rename_i h
    simp only
    rw [List.set_append_left _ _ h]
  · rename_i h
    simp only
    rw [List.set_append_right _ _ (by omega)]

/-- The object in a slot has changed, and now knows the size of its cluster. -/
theorem Stepping.put (h : Stepping r scale S q cs k a) (hc : SizedChain r scale p0 cs q) (hS : S < p0) {x : Nat × ClusterOf} (hx : x ∈ cs)
    (hheld : x ∈ cs.take k.loaded ∨ x.1 - S ∈ k.found) {j : Nat} {c d : ReadCluster} (hj : a.table[j]? = some c) (hcx : c.start = x.1)
    (hd : Loaded r scale d x) (hsz : SizedObj r scale q cs d) :
    Stepping r scale S q cs { k with looked := (x.1 - S) :: k.looked } (a.put j d) := by
  obtain ⟨xs, t1, t2, t3, t4, t5, t6⟩ := h.table hc
  have hst := t1.starts
  obtain ⟨hj1, hj2⟩ := List.getElem?_eq_some_iff.mp hj
  have hget : ∀ i, i < a.table.length → ∃ y, xs[i]? = some y ∧ ∀ d, a.table[i]? = some d → d.start = y.1 := by
    intro i hi
    refine ⟨xs[i]'(by omega), List.getElem?_eq_getElem (by omega), fun d hd => ?_⟩
    have h1 := congrArg (fun l => l[i]?) hst
    simp only [List.getElem?_map, hd, List.getElem?_eq_getElem (show i < xs.length by omega), Option.map_some, Option.some.injEq] at h1
    exact h1
  have hjx : xs[j]? = some x := by
    obtain ⟨y, y1, y2⟩ := hget j hj1
    rw [y1, sorted_eq hc.sorted.1 ((t6 y).mp (List.mem_of_getElem? y1)).1 hx (by rw [← y2 c hj]; exact hcx)]
  obtain ⟨ys, h1, h2, h3⟩ := h.ahead
  have hmem : ∀ e ∈ (a.put j d).table, e = d ∨ e ∈ a.table := by
    rw [put_table hj1]
    intro e he
    exact (List.mem_or_eq_of_mem_set he).symm
  have hlooked : ∀ e ∈ (a.put j d).table, e.start - S ∈ (x.1 - S) :: k.looked → SizedObj r scale q cs e := by
    intro e he hl
    rcases hmem e he with rfl | he'
    · exact hsz
    rcases List.mem_cons.mp hl with hl | hl
    · -- the same start: it is the object itself
      rw [put_table hj1] at he
      obtain ⟨i, hi⟩ := List.getElem?_of_mem he
      rw [List.getElem?_set] at hi
      split at hi
      · rename_i hij
        cases hi; exact hsz
      · rename_i hij
        exfalso
        obtain ⟨hi1, hi2⟩ := List.getElem?_eq_some_iff.mp hi
        obtain ⟨y, y1, y2⟩ := hget i hi1
        have hyc := ((t6 y).mp (List.mem_of_getElem? y1)).1
        have g1 := hc.sorted.2 y hyc
        have g2 := hc.sorted.2 x hx
        have g3 := y2 e hi
        have e1 : (a.table.map (·.start))[i]'(by simpa using hi1) = x.1 := by simp [hi2]; omega
        have e2 : (a.table.map (·.start))[j]'(by simpa using hj1) = x.1 := by simp [hj2, hcx]
        have hs' : (a.table.map (·.start)).Pairwise (· < ·) := by rw [hst]; exact t2
        rw [List.pairwise_iff_getElem] at hs'
        rcases Nat.lt_trichotomy i j with hlt | hlt | hlt
        · have := hs' i j (by simpa using hi1) (by simpa using hj1) hlt; omega
        · exact hij hlt.symm
        · have := hs' j i (by simpa using hj1) (by simpa using hi1) hlt; omega
    · exact h.looked e he' hl
  have hheld' : ∀ o ∈ (x.1 - S) :: k.looked, o ∈ k.found ∨ ∃ y ∈ cs.take k.loaded, y.1 - S = o := by
    intro o ho
    rcases List.mem_cons.mp ho with rfl | ho
    · exact hheld.symm.imp id fun h => ⟨x, h, rfl⟩
    · exact h.held o ho
  have hobjs : ∀ e ∈ (a.put j d).table, e = { start := e.start, pos := e.start } ∨ SizedObj r scale q cs e := by
    intro e he
    rcases hmem e he with rfl | he'
    · exact .inr hsz
    · exact h.objs e he'
  by_cases hlt : j < a.seg.clusters.length
  · have hput : a.put j d = { a with seg := { a.seg with clusters := a.seg.clusters.set j d } } := by
      unfold Ahead.put; rw [if_pos hlt]
    refine ⟨?_, ?_, h.count, ?_, ?_, ?_, hobjs, hlooked, hheld'⟩
    · rw [hput]; exact h.start
    · rw [hput]; exact h.stop
    · rw [hput]
      refine h.loaded.set ?_ hd
      rw [← t3, List.getElem?_take, if_pos (by omega)]
      exact hjx
    · rw [hput]; exact ⟨ys, h1, h2, h3⟩
    · rw [hput]; exact h.pos
  · have hput : a.put j d = { a with preloaded := a.preloaded.set (j - a.seg.clusters.length) d } := by
      unfold Ahead.put; rw [if_neg hlt]
    refine ⟨?_, ?_, h.count, ?_, ?_, ?_, hobjs, hlooked, hheld'⟩
    · rw [hput]; exact h.start
    · rw [hput]; exact h.stop
    · rw [hput]; exact h.loaded
    · rw [hput]
      refine ⟨ys, h1.set ?_ hd, h2, h3⟩
      have hjp : a.preloaded[j - a.seg.clusters.length]? = some c := by
        unfold Ahead.table at hj
        rw [List.getElem?_append_right (by omega)] at hj
        exact hj
      obtain ⟨hj3, -⟩ := List.getElem?_eq_some_iff.mp hjp
      have h5 := congrArg (fun l => l[j - a.seg.clusters.length]?) h1.starts
      have hyl := h1.length
      simp only [List.getElem?_map, hjp, List.getElem?_eq_getElem (show j - a.seg.clusters.length < ys.length by omega), Option.map_some,
        Option.some.injEq] at h5
      rw [List.getElem?_eq_getElem (show j - a.seg.clusters.length < ys.length by omega)]
      congr 1
      exact sorted_eq hc.sorted.1 (List.mem_of_mem_drop ((h3 _).mp (List.getElem_mem _)).1) hx (by omega)
    · rw [hput]; exact h.pos

/-- A frame of a cluster that the application has an object for. -/
theorem Stepping.frame (hw : r.Whole) (h : Stepping r scale S q cs k a) (hc : SizedChain r scale p0 cs q) (hS : S < p0) {x : Nat × ClusterOf}
    (hx : x ∈ cs) (hheld : x ∈ cs.take k.loaded ∨ x.1 - S ∈ k.found) (fuel n : Nat) :
    ∃ a', reply r fuel a (.frame (x.1 - S) n) = .ok (a', ((x.2.frames.map (Frame.asWatched scale))[n]?.elim .nothing fun f => .frames [f])) ∧
      Stepping r scale S q cs { k with looked := (x.1 - S) :: k.looked } a' := by
  obtain ⟨j, c, s1, s2, s3, s4⟩ := h.slot hc hS hx hheld
  obtain ⟨pre, post, hsp⟩ := List.append_of_mem hx
  have hc' := hc
  rw [hsp] at hc'
  obtain ⟨len, w, blocks, c1, c2, -, c4⟩ := hc'.split
  -- the object after `Load`
  have hobj : ∃ d es done rest bl, c.load r = .ok d ∧ Partway r scale x.2.tc d es done rest bl ∧ done ++ rest = x.2.frames ∧
      SizedObj r scale q cs d ∧ d.start = x.1 := by
    obtain ⟨-, d, es, done, rest, bl, l1, l2, l3, l4⟩ := s3
    refine ⟨d, es, done, rest, bl, l1, l2, l3, ?_, (ReadCluster.load_entries l1).2.trans s4⟩
    rcases h.objs c (List.mem_of_getElem? s2) with hf | hz
    · obtain ⟨d', m1, m2, -, m4, m5⟩ := c1.load hw c2 (.inl rfl)
      rw [hf, s4, m1] at l1
      cases l1
      refine ⟨by rw [m5.timecode]; rfl, len, m4, fun pre' y post' hy hy' => ?_⟩
      rw [m2] at hy' ⊢
      have hyx : y = x := sorted_eq hc.sorted.1 (by rw [hy]; simp) hx hy'
      subst hyx
      have hc2 := hc
      rw [hy] at hc2
      obtain ⟨len', w', blocks', n1, -, -, n4⟩ := hc2.split
      have e1 := n1.head.readSize
      have e2 := c1.head.readSize
      rw [if_pos rfl] at e1 e2
      rw [e1] at e2
      simp only [Res.ok.injEq, Prod.mk.injEq] at e2
      have := n1.total
      have := c1.total
      rw [show len = len' by omega]
      exact n4
    · have : c.load r = .ok c := by unfold ReadCluster.load; rw [if_pos hz.1]
      rw [this] at l1
      cases l1
      exact hz
  obtain ⟨d, es, done, rest, bl, l1, l2, l3, l4, l5⟩ := hobj
  obtain ⟨d2, es2, done2, rest2, bl2, w1, w2, w3, w4, w5, w6⟩ := nthBlock_ok hw n l2 (by rw [l3]; exact c1.ne) (by
    obtain ⟨-, m, e, -⟩ := l4; rw [e]; rfl)
  have hlen : es2.length = done2.length := by simpa using congrArg List.length w2.shown
  have hd2 : SizedObj r scale q cs d2 := by
    obtain ⟨-, m, e1, e2⟩ := l4
    refine ⟨by rw [w2.timecode]; rfl, m, by rw [w5, e1], ?_⟩
    rw [w4]
    exact e2
  have hput := h.put hc hS hx hheld s2 s4 (d := d2) ⟨w4.trans l5, d2, es2, done2, rest2, bl2, w2.load, w2, w3.trans l3, c1.ne⟩ hd2
  refine ⟨a.put j d2, ?_, hput⟩
  unfold reply
  simp only
  rw [s1, Res.bind_ok, s2]
  simp only
  unfold ReadCluster.getTimeCode
  rw [l1]
  simp only [Res.bind_ok]
  rw [w1, Res.bind_ok, l2.timecode]
  simp only [Option.elim]
  rw [← l3, ← w3]
  by_cases hn : n < es2.length
  · have hn' : n < done2.length := by omega
    have hshow := congrArg (fun l => l[n]?) w2.shown
    simp only [List.getElem?_map, List.getElem?_eq_getElem hn, List.getElem?_eq_getElem hn', Option.map_some, Option.some.injEq] at hshow
    rw [List.getElem?_eq_getElem hn]
    simp only
    rw [hshow, Res.bind_ok, List.getElem?_map, List.getElem?_append_left hn', List.getElem?_eq_getElem hn']
    rfl
  · have hr : rest2 = [] := w6.resolve_right hn
    subst hr
    rw [List.getElem?_eq_none (by omega)]
    simp only
    rw [List.getElem?_eq_none (by simp; omega)]

/-- The slot of a loaded cluster, and what is in the next one. -/
theorem Stepping.index (h : Stepping r scale S q cs k a) (hc : SizedChain r scale p0 cs q) {pre post : List (Nat × ClusterOf)} {x : Nat × ClusterOf}
    (he : cs.take k.loaded = pre ++ x :: post) {j : Nat} {c : ReadCluster} (hj : a.table[j]? = some c) (hcx : c.start = x.1) :
    j = pre.length ∧ a.seg.clusters.length = pre.length + 1 + post.length ∧
    ∀ y post', post = y :: post' → ∃ d, a.table[j + 1]? = some d ∧ d.start = y.1 := by
  obtain ⟨xs, t1, t2, -, -, -, -⟩ := h.table hc
  have hst := t1.starts
  have hl := h.loaded.starts
  rw [he] at hl
  have hlen : a.seg.clusters.length = pre.length + 1 + post.length := by
    have := congrArg List.length hl
    simp at this
    omega
  have hs' : (a.table.map (·.start)).Pairwise (· < ·) := by rw [hst]; exact t2
  have hat : ∀ i, i < a.seg.clusters.length → (a.table.map (·.start))[i]? = ((pre ++ x :: post).map (·.1))[i]? := by
    intro i hi
    rw [← hl]
    unfold Ahead.table
    rw [List.map_append, List.getElem?_append_left (by simpa using hi)]
  have hx' : (a.table.map (·.start))[pre.length]? = some x.1 := by
    rw [hat _ (by omega)]; simp
  have hj' : (a.table.map (·.start))[j]? = some x.1 := by
    rw [List.getElem?_map, hj, ← hcx]; rfl
  obtain ⟨a1, a2⟩ := List.getElem?_eq_some_iff.mp hx'
  obtain ⟨b1, b2⟩ := List.getElem?_eq_some_iff.mp hj'
  have hjp : j = pre.length := by
    rw [List.pairwise_iff_getElem] at hs'
    rcases Nat.lt_trichotomy j pre.length with hlt | hlt | hlt
    · have := hs' _ _ b1 a1 hlt; omega
    · exact hlt
    · have := hs' _ _ a1 b1 hlt; omega
  refine ⟨hjp, hlen, fun y post' hp => ?_⟩
  subst hp
  have := hat (j + 1) (by simp at hlen; omega)
  rw [hjp, List.map_append, List.getElem?_append_right (by simp), List.length_map] at this
  simp only [Nat.add_sub_cancel_left, List.map_cons, List.getElem?_cons_succ, List.getElem?_cons_zero, List.getElem?_map, Option.map_eq_some_iff] at this
  rw [hjp]
  exact this

theorem following_mem {L : List (Nat × List SeenFrame)} {off o : Nat} (h : following L off = some o) : o ∈ L.map (·.1) := by
  unfold following at h
  obtain ⟨y, h1, rfl⟩ := Option.map_eq_some_iff.mp h
  exact List.mem_map_of_mem (List.dropWhile_sublist _ |>.subset (List.mem_of_mem_drop (List.mem_of_head? h1)))

/-- The clusters that the application has been given are there. -/
theorem answer_found {L : List (Nat × List SeenFrame)} {x : Ask} {k' : Progress} {t : Reply} (h : k.answer L x = some (k', t))
    (hk : ∀ o ∈ k.found, o ∈ L.map (·.1)) : ∀ o ∈ k'.found, o ∈ L.map (·.1) := by
  have hload : ∀ P u, k.load L = (P, u) → ∀ o ∈ P.found, o ∈ L.map (·.1) := by
    intro P u hP
    unfold Progress.load at hP
    split at hP <;> cases hP <;> exact hk
  have hgiven : ∀ o P u, (∀ o', o = some o' → o' ∈ L.map (·.1)) → k.given o = (P, u) → ∀ o ∈ P.found, o ∈ L.map (·.1) := by
    intro o P u ho hP
    unfold Progress.given at hP
    split at hP <;> cases hP
    · exact hk
    · intro o' ho'
      rcases List.mem_cons.mp ho' with rfl | ho'
      · exact ho _ rfl
      · exact hk _ ho'
  cases x with
  | load => simp only [Progress.answer, Option.some.injEq] at h; exact hload _ _ h
  | find off =>
    simp only [Progress.answer] at h
    split at h
    · rename_i hm
      simp only [Option.some.injEq] at h
      exact hgiven _ _ _ (fun o' e => by cases e; exact hm) h
    · cases h
  | next off =>
    simp only [Progress.answer] at h
    split at h
    · cases h; exact hk
    split at h
    · simp only [Option.some.injEq] at h
      exact hgiven _ _ _ (fun o' e => following_mem e) h
    · cases h
  | parseNext off =>
    simp only [Progress.answer] at h
    split at h
    · split at h
      · cases h; exact hk
      · simp only [Option.some.injEq] at h; exact hload _ _ h
    split at h
    · simp only [Option.some.injEq] at h
      exact hgiven _ _ _ (fun o' e => following_mem e) h
    · cases h
  | frame off n =>
    simp only [Progress.answer] at h
    split at h
    · split at h
      · cases h
      · cases h; exact hk
    · cases h

/-- **Every call is answered as it should be.** -/
theorem reply_ok (hw : r.Whole) (h : Stepping r scale S q cs k a) (hc : SizedChain r scale p0 cs q) (ht : TailAt r q tl) (hS : S < p0)
    {fuel : Nat} (hf : 0 < fuel) (hk : ∀ o ∈ k.found, o ∈ (offsets scale S cs).map (·.1)) {x : Ask} {k' : Progress} {t : Reply} (hans : k.answer (offsets scale S cs) x = some (k', t)) :
    ∃ a', reply r fuel a x = .ok (a', t) ∧ Stepping r scale S q cs k' a' := by
  have hsorted := hc.sorted.1
  have hge : ∀ y ∈ cs, S ≤ y.1 := fun y hy => by have := hc.sorted.2 y hy; omega
  have hsortedT : ((cs.take k.loaded).map (·.1)).Pairwise (· < ·) := by
    rw [← List.take_append_drop k.loaded cs, List.map_append, List.pairwise_append] at hsorted
    exact hsorted.1
  -- loading
  have hload : ∀ (P : Progress) (u : Reply), k.load (offsets scale S cs) = (P, u) →
      ∃ a' b, a.loadCluster r fuel = (a', .ok b) ∧
        tell a' (if b then some (a'.seg.clusters.length - 1) else none) = .ok u ∧ Stepping r scale S q cs P a' := by
    intro P u hP
    unfold Progress.load at hP
    rcases h.load hw hc hS hf with ⟨e1, a', e2, e3⟩ | ⟨x, post, e1, a', c, e2, e3, e4, e5⟩
    · have : (offsets scale S cs)[k.loaded]? = none := by
        unfold offsets
        rw [List.getElem?_eq_none]
        rw [List.length_map]
        exact List.drop_eq_nil_iff.mp e1
      rw [this] at hP
      cases hP
      exact ⟨a', false, e2, rfl, e3⟩
    · have : (offsets scale S cs)[k.loaded]? = some (x.1 - S, x.2.frames.map (Frame.asWatched scale)) := by
        unfold offsets
        rw [List.getElem?_map]
        have := congrArg (fun l => l[0]?) e1
        simp only [List.getElem?_drop, Nat.add_zero, List.getElem?_cons_zero] at this
        rw [this]
        rfl
      rw [this] at hP
      cases hP
      exact ⟨a', true, e2, by rw [if_pos rfl, tell_slot e4 e3.start, e5], e3⟩
  cases x with
  | load =>
    simp only [Progress.answer, Option.some.injEq] at hans
    obtain ⟨a', b, e1, e2, e3⟩ := hload _ _ hans
    refine ⟨a', ?_, e3⟩
    unfold reply withState
    simp only
    rw [e1]
    simp only [Res.bind_ok]
    rw [e2, Res.bind_ok]
  | find off =>
    simp only [Progress.answer] at hans
    split at hans
    · rename_i hm
      obtain ⟨x, hx, rfl⟩ := offsets_mem.mp hm
      unfold Progress.given at hans
      cases hans
      obtain ⟨a', j, c, e1, e2, e3, e4⟩ := h.find hw hc hS hx
      refine ⟨a', ?_, e2⟩
      unfold reply
      simp only
      rw [e1, Res.bind_ok]
      simp only
      rw [tell_slot e3 e2.start, e4, Res.bind_ok]
    · cases hans
  | next off =>
    simp only [Progress.answer] at hans
    split at hans
    · rename_i hm
      rw [offsets_take] at hm hans
      obtain ⟨x, hx, rfl⟩ := offsets_mem.mp hm
      obtain ⟨pre, post, hsp⟩ := List.append_of_mem hx
      rw [following_of hsortedT (fun y hy => hge y (List.mem_of_mem_take hy)) hsp] at hans
      cases hans
      obtain ⟨j, c, s1, s2, s3, s4⟩ := h.slot hc hS (List.mem_of_mem_take hx) (.inl hx)
      obtain ⟨i1, i2, i3⟩ := h.index hc hsp s2 s4
      refine ⟨a, ?_, h⟩
      unfold reply
      simp only
      rw [s1, Res.bind_ok]
      unfold Ahead.getNext ReadSegment.getNext
      rw [if_pos (by omega), Res.bind_ok]
      cases post with
      | nil =>
        rw [List.length_nil] at i2
        rw [if_pos (by omega)]
        rfl
      | cons y post' =>
        obtain ⟨d, d1, d2⟩ := i3 y post' rfl
        rw [List.length_cons] at i2
        rw [if_neg (by omega)]
        simp only
        rw [tell_slot d1 h.start, d2]
        rfl
    · rename_i hm
      rw [offsets_take] at hm
      split at hans
      · rename_i hfound
        obtain ⟨x, hx, rfl⟩ := offsets_mem.mp (hk off hfound)
        obtain ⟨pre, post, hsp⟩ := List.append_of_mem hx
        rw [following_of hsorted hge hsp] at hans
        obtain ⟨j, c, s1, s2, s3, s4⟩ := h.slot hc hS hx (.inr hfound)
        obtain ⟨-, -, -, -, hor⟩ := h.step hw hc ht hS hsp (fun hh => hm (offsets_mem.mpr ⟨x, hh, rfl⟩)) s2 s4
        unfold reply
        simp only
        rw [s1, Res.bind_ok]
        rcases hor with ⟨rfl, e⟩ | ⟨y, post', a', j', c', rfl, e, e1, e2, e3⟩
        · cases hans
          rw [e, Res.bind_ok]
          exact ⟨a, rfl, h⟩
        · cases hans
          rw [e, Res.bind_ok]
          simp only
          rw [tell_slot e2 e1.start, e3]
          exact ⟨a', rfl, e1⟩
      · cases hans
  | parseNext off =>
    simp only [Progress.answer] at hans
    split at hans
    · rename_i hm
      rw [offsets_take] at hm hans
      obtain ⟨x, hx, rfl⟩ := offsets_mem.mp hm
      obtain ⟨pre, post, hsp⟩ := List.append_of_mem hx
      rw [following_of hsortedT (fun y hy => hge y (List.mem_of_mem_take hy)) hsp] at hans
      obtain ⟨j, c, s1, s2, s3, s4⟩ := h.slot hc hS (List.mem_of_mem_take hx) (.inl hx)
      obtain ⟨i1, i2, i3⟩ := h.index hc hsp s2 s4
      unfold reply
      simp only
      rw [s1, Res.bind_ok]
      unfold Ahead.parseNext
      rw [if_pos (by omega)]
      cases post with
      | nil =>
        simp only [List.head?_nil, Option.map_none, Option.some.injEq] at hans
        rw [List.length_nil] at i2
        rw [if_neg (by omega)]
        obtain ⟨a', b, e1, e2, e3⟩ := hload _ _ hans
        rw [e1]
        cases b with
        | false =>
          rw [if_neg (by simp)] at e2
          simp only [withState, Res.bind_ok]
          rw [e2]
          exact ⟨a', rfl, e3⟩
        | true =>
          rw [if_pos rfl] at e2
          simp only [withState, Res.bind_ok]
          rw [e2]
          exact ⟨a', rfl, e3⟩
      | cons y post' =>
        obtain ⟨d, d1, d2⟩ := i3 y post' rfl
        rw [List.length_cons] at i2
        cases hans
        rw [if_pos (by omega)]
        simp only [withState, Res.bind_ok]
        rw [tell_slot d1 h.start, d2]
        exact ⟨a, rfl, h⟩
    · rename_i hm
      rw [offsets_take] at hm
      split at hans
      · rename_i hfound
        obtain ⟨x, hx, rfl⟩ := offsets_mem.mp (hk off hfound.1)
        obtain ⟨pre, post, hsp⟩ := List.append_of_mem hx
        rw [following_of hsorted hge hsp] at hans
        obtain ⟨j, c, s1, s2, s3, s4⟩ := h.slot hc hS hx (.inr hfound.1)
        unfold reply
        simp only
        rw [s1, Res.bind_ok]
        rcases h.parse hw hc ht hS hsp (fun hh => hm (offsets_mem.mpr ⟨x, hh, rfl⟩)) s2 s4
          (h.looked c (List.mem_of_getElem? s2) (by rw [s4]; exact hfound.2)) hf with ⟨rfl, a', e, e1⟩ | ⟨y, post', a', j', c', rfl, e, e1, e2, e3⟩
        · cases hans
          rw [e]
          exact ⟨a', rfl, e1⟩
        · cases hans
          rw [e]
          simp only [withState, Res.bind_ok]
          rw [tell_slot e2 e1.start, e3]
          exact ⟨a', rfl, e1⟩
      · cases hans
  | frame off n =>
    simp only [Progress.answer] at hans
    split at hans
    · rename_i hm
      rw [offsets_take] at hm
      have : ∃ x ∈ cs, x.1 - S = off ∧ (x ∈ cs.take k.loaded ∨ x.1 - S ∈ k.found) := by
        rcases hm with hm | hm
        · obtain ⟨x, hx, rfl⟩ := offsets_mem.mp hm
          exact ⟨x, List.mem_of_mem_take hx, rfl, .inl hx⟩
        · obtain ⟨x, hx, rfl⟩ := offsets_mem.mp (hk off hm)
          exact ⟨x, hx, rfl, .inr hm⟩
      obtain ⟨x, hx, rfl, hheld⟩ := this
      obtain ⟨pre, post, hsp⟩ := List.append_of_mem hx
      rw [(dropWhile_to hsorted hge hsp).2] at hans
      cases hans
      exact h.frame hw hc hS hx hheld fuel n
    · cases hans

/-- **Every history of calls is answered as it should be.** -/
theorem replies_ok (hw : r.Whole) (hc : SizedChain r scale p0 cs q) (ht : TailAt r q tl) (hS : S < p0) {fuel : Nat} (hf : 0 < fuel) :
    ∀ (calls : List Ask) {k : Progress} {a : Ahead} {ts : List Reply}, Stepping r scale S q cs k a →
      (∀ o ∈ k.found, o ∈ (offsets scale S cs).map (·.1)) → Progress.answers (offsets scale S cs) k calls = some ts →
      ∃ a', replies r fuel a calls = .ok (a', ts)
  | [], k, a, ts, h, hk, hans => by
    cases hans
    exact ⟨a, rfl⟩
  | x :: calls, k, a, ts, h, hk, hans => by
    unfold Progress.answers at hans
    cases hx : k.answer (offsets scale S cs) x with
    | none => rw [hx] at hans; cases hans
    | some kt =>
      obtain ⟨k', t⟩ := kt
      rw [hx] at hans
      simp only [Option.bind_eq_bind, Option.bind_some] at hans
      cases hts : Progress.answers (offsets scale S cs) k' calls with
      | none => rw [hts] at hans; cases hans
      | some ts' =>
        rw [hts] at hans
        cases hans
        obtain ⟨a', e1, e2⟩ := reply_ok hw h hc ht hS hf hk hx
        obtain ⟨a2, e3⟩ := replies_ok hw hc ht hS hf calls e2 (answer_found hx hk) hts
        refine ⟨a2, ?_⟩
        unfold replies
        rw [e1, Res.bind_ok]
        simp only
        rw [e3]
        rfl

end

end Verif.Par

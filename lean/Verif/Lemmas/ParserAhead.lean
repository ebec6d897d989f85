/-
Reading ahead in a file of the muxer.
-/
import Verif.Lemmas.ParserSeek
import Verif.Lemmas.ParserFile
import Verif.Spec.Ahead

namespace Verif.Par
open Verif Spec Mux

/-! ### Clusters of known size -/

/-- Clusters of known size one after the other, from `p` to `q`, each with its position. -/
inductive SizedChain (r : Rdr) (scale : Nat) : Nat → List (Nat × ClusterOf) → Nat → Prop
  | nil {p : Nat} : SizedChain r scale p [] p
  | cons {p q len w : Nat} {cl : ClusterOf} {cs : List (Nat × ClusterOf)} {blocks : Bytes}
      (h : ClusterIn r scale p true cl len w blocks)
      (hf : ∀ f ∈ cl.frames, Fine scale f) (rest : SizedChain r scale (p + len) cs q) : SizedChain r scale p ((p, cl) :: cs) q

theorem SizedChain.of {r : Rdr} {scale start off : Nat} {cs : List (Nat × ClusterOf)} {bs : Bytes}
    (h : ClustersAt scale true off cs bs) (hmax : r.data.length < 2 ^ 48) : ∀ {p : Nat}, p = start + off → At r.data p bs →
    p + bs.length ≤ r.data.length → (∀ f ∈ clusterFrames cs, Fine scale f) →
    SizedChain r scale p (cs.map fun c => (start + c.1, c.2)) (p + bs.length) := by
  induction h with
  | nil => intro p _ _ _ _; exact .nil
  | cons h hr ih =>
    rename_i off c cs b bs
    intro p hp hat hle hf
    rw [at_append] at hat
    rw [List.length_append] at hle
    have hrest := ih (p := p + b.length) (by omega) hat.2 (by omega) (fun f hf' => hf f (by
      simp only [clusterFrames, List.map_cons, List.flatten_cons] at *; exact List.mem_append_right _ hf'))
    rw [List.map_cons, List.length_append, ← Nat.add_assoc, ← hp]
    obtain ⟨w, blocks, hc⟩ := clusterIn h hat.1 (by omega)
    exact .cons hc (fun f hf' => hf f (by
      simp only [clusterFrames, List.map_cons, List.flatten_cons]; exact List.mem_append_left _ hf')) hrest

section
variable {r : Rdr} {scale : Nat}

theorem SizedChain.split {p q : Nat} {pre post : List (Nat × ClusterOf)} {x : Nat × ClusterOf}
    (h : SizedChain r scale p (pre ++ x :: post) q) :
    ∃ len w blocks, ClusterIn r scale x.1 true x.2 len w blocks ∧ (∀ f ∈ x.2.frames, Fine scale f) ∧ p ≤ x.1 ∧
      SizedChain r scale (x.1 + len) post q := by
  induction pre generalizing p with
  | nil =>
    cases h with
    | cons h hf rest => exact ⟨_, _, _, h, hf, Nat.le_refl _, rest⟩
  | cons y pre ih =>
    cases h with
    | cons h hf rest =>
      obtain ⟨len, w, blocks, h1, h2, h3, h4⟩ := ih rest
      exact ⟨len, w, blocks, h1, h2, by omega, h4⟩

theorem SizedChain.sorted {p q : Nat} {cs : List (Nat × ClusterOf)} (h : SizedChain r scale p cs q) :
    (cs.map (·.1)).Pairwise (· < ·) ∧ ∀ x ∈ cs, p ≤ x.1 := by
  induction h with
  | nil => exact ⟨.nil, by simp⟩
  | cons h hf rest ih =>
    have := h.total
    refine ⟨?_, ?_⟩
    · rw [List.map_cons, List.pairwise_cons]
      refine ⟨fun y hy => ?_, ih.1⟩
      obtain ⟨z, hz, rfl⟩ := List.mem_map.mp hy
      have := ih.2 z hz
      simp only
      omega
    · intro x hx
      rcases List.mem_cons.mp hx with rfl | hx
      · exact Nat.le_refl _
      · have := ih.2 x hx; omega

theorem SizedChain.le {p q : Nat} {cs : List (Nat × ClusterOf)} (h : SizedChain r scale p cs q) : p ≤ q := by
  induction h with
  | nil => exact Nat.le_refl _
  | cons h _ _ ih => omega

theorem SizedChain.count {p q : Nat} {cs : List (Nat × ClusterOf)} (h : SizedChain r scale p cs q) :
    p + cs.length ≤ q ∧ ∀ x ∈ cs, x.2.frames.length ≤ r.data.length := by
  induction h with
  | nil => exact ⟨by simp, by simp⟩
  | cons h _ _ ih =>
    have h1 := h.total
    have h2 := (blocks_facts h.isBlocks).1
    have h3 := h.fit
    refine ⟨by rw [List.length_cons]; omega, fun x hx => ?_⟩
    rcases List.mem_cons.mp hx with rfl | hx
    · simp only; omega
    · exact ih.2 x hx

/-- A new object for a cluster. -/
theorem ClusterIn.fresh (hw : r.Whole) {p len w : Nat} {cl : ClusterOf} {blocks : Bytes} (h : ClusterIn r scale p true cl len w blocks)
    (hf : ∀ f ∈ cl.frames, Fine scale f) : Loaded r scale { start := p, pos := p } (p, cl) := by
  obtain ⟨c, h1, -, -, -, h2⟩ := h.load hw hf (.inl rfl)
  exact ⟨rfl, c, _, _, _, _, h1, h2, rfl, h.ne⟩

/-! ### The table -/

/-- The lookup in a table that is in order. -/
theorem search_sorted {cs : List ReadCluster} {start : Nat} (hsort : (cs.map (·.start)).Pairwise (· < ·))
    (hge : ∀ c ∈ cs, start ≤ c.start) (req : Int) :
    (∃ k c, searchLoop (cs.map fun c => some ⟨0, (c.start : Int) - start, 0⟩) cs.length req 0 cs.length = .ok (.inl k) ∧
      cs[k]? = some c ∧ (c.start : Int) - start = req) ∨
    (∃ m, searchLoop (cs.map fun c => some ⟨0, (c.start : Int) - start, 0⟩) cs.length req 0 cs.length = .ok (.inr m) ∧
      m ≤ cs.length ∧ (∀ c ∈ cs.take m, (c.start : Int) - start < req) ∧ ∀ c ∈ cs.drop m, req < (c.start : Int) - start) := by
  have hs' : (cs.map fun c => (⟨0, (c.start : Int) - start, 0⟩ : Clu)).Pairwise fun a b => a.pos < b.pos := by
    rw [List.pairwise_map] at hsort ⊢
    exact hsort.imp fun h => by simp only; omega
  have h := searchLoop_spec (t := { mem := cs.map fun c => some ⟨0, (c.start : Int) - start, 0⟩ }) (ls := [])
    (ps := cs.map fun c => ⟨0, (c.start : Int) - start, 0⟩) (by
      intro k hk
      simp only [List.length_nil, Nat.zero_add, List.length_map] at hk
      have := hge cs[k] (List.getElem_mem hk)
      refine ⟨⟨0, (cs[k].start : Int) - start, 0⟩, ?_, ?_, ?_⟩
      · simp only [List.nil_append, List.getElem?_map, List.getElem?_eq_getElem hk, Option.map_some]
      · simp only [List.getElem?_map, List.getElem?_eq_getElem hk, Option.map_some]
      · simp only; omega) hs' req 0 cs.length (by omega) (by simp)
    (by intro k c hk; omega) (by
      intro _ j d hj hd
      rw [List.getElem?_eq_none (by simpa using hj)] at hd
      cases hd)
  simp only [List.length_nil, Nat.zero_add, List.length_map, List.nil_append] at h
  rcases h with ⟨k, d, h1, h2, h3⟩ | ⟨m, h1, -, hm, h2, h3⟩
  · refine .inl ⟨k, ?_⟩
    rw [List.getElem?_map] at h2
    cases hc : cs[k]? with
    | none => rw [hc] at h2; cases h2
    | some c =>
      rw [hc] at h2
      cases h2
      exact ⟨c, h1, rfl, h3⟩
  · refine .inr ⟨m, h1, hm, fun c hc => ?_, fun c hc => ?_⟩
    · obtain ⟨k, hk⟩ := List.getElem?_of_mem hc
      rw [List.getElem?_take] at hk
      split at hk
      · exact h2 k ⟨0, (c.start : Int) - start, 0⟩ (by omega) (by rw [List.getElem?_map, hk]; rfl)
      · cases hk
    · obtain ⟨k, hk⟩ := List.getElem?_of_mem hc
      rw [List.getElem?_drop] at hk
      exact h3 (by omega) (m + k) ⟨0, (c.start : Int) - start, 0⟩ (by omega) (by rw [List.getElem?_map, hk]; rfl)

theorem LoadedAll.append {a b : List ReadCluster} {xs ys : List (Nat × ClusterOf)} (h : LoadedAll r scale a xs)
    (h' : LoadedAll r scale b ys) : LoadedAll r scale (a ++ b) (xs ++ ys) := by
  induction h with
  | nil => exact h'
  | cons h _ ih => exact .cons h ih

theorem LoadedAll.take {a : List ReadCluster} {xs : List (Nat × ClusterOf)} (h : LoadedAll r scale a xs) :
    ∀ n, LoadedAll r scale (a.take n) (xs.take n) ∧ LoadedAll r scale (a.drop n) (xs.drop n) := by
  induction h with
  | nil => intro n; rw [List.take_nil, List.take_nil, List.drop_nil, List.drop_nil]; exact ⟨.nil, .nil⟩
  | cons h hr ih =>
    intro n
    cases n with
    | zero => exact ⟨.nil, .cons h hr⟩
    | succ n => exact ⟨.cons h (ih n).1, (ih n).2⟩

/-- What is known of a segment with only preloaded clusters: it is `g`, and the objects are for the clusters `xs`, some of the
clusters `cs`. -/
structure Knows (r : Rdr) (scale : Nat) (g : ReadSegment) (cs : List (Nat × ClusterOf)) (a : Ahead) (xs : List (Nat × ClusterOf)) :
    Prop where
  seg : a.seg = g
  unloaded : g.clusters = []
  all : LoadedAll r scale a.preloaded xs
  sorted : (xs.map (·.1)).Pairwise (· < ·)
  sub : ∀ x ∈ xs, x ∈ cs
  ge : ∀ x ∈ cs, g.start ≤ x.1

variable {g : ReadSegment} {cs xs : List (Nat × ClusterOf)} {a : Ahead}

theorem Knows.table (h : Knows r scale g cs a xs) : a.table = a.preloaded := by
  unfold Ahead.table
  rw [h.seg, h.unloaded, List.nil_append]

theorem Knows.put (h : Knows r scale g cs a xs) {k : Nat} {x : Nat × ClusterOf} {c : ReadCluster} (hx : xs[k]? = some x)
    (hc : Loaded r scale c x) : Knows r scale g cs (a.put k c) xs ∧ (a.put k c).table[k]? = some c := by
  have hp : a.put k c = { a with preloaded := a.preloaded.set k c } := by
    unfold Ahead.put
    rw [h.seg, h.unloaded, List.length_nil, if_neg (by omega)]
    rfl
  rw [hp]
  have hk : Knows r scale g cs { a with preloaded := a.preloaded.set k c } xs :=
    ⟨h.seg, h.unloaded, h.all.set hx hc, h.sorted, h.sub, h.ge⟩
  refine ⟨hk, ?_⟩
  rw [hk.table]
  have := (List.getElem?_eq_some_iff.mp hx).1
  have := h.all.length
  simp only
  rw [List.getElem?_set_self (by omega)]

/-- The lookup of a cluster of the file, among the preloaded ones or by preloading it. -/
theorem Knows.found (h : Knows r scale g cs a xs) (hcs : (cs.map (·.1)).Pairwise (· < ·))
    {x : Nat × ClusterOf} (hx : x ∈ cs) (hl : Loaded r scale { start := x.1, pos := x.1 } x) {off : Int}
    (hoff : off = (x.1 : Int) - g.start) :
    (∃ k, searchLoop (a.preloaded.map fun c => some ⟨0, (c.start : Int) - g.start, 0⟩) a.preloaded.length off 0 a.preloaded.length =
      .ok (.inl k) ∧ xs[k]? = some x) ∨
    (∃ m, searchLoop (a.preloaded.map fun c => some ⟨0, (c.start : Int) - g.start, 0⟩) a.preloaded.length off 0 a.preloaded.length =
      .ok (.inr m) ∧ ∃ a' ys, a.preload off m = (a', some m) ∧ Knows r scale g cs a' ys ∧ ys[m]? = some x) := by
  have hst := h.all.starts
  have hge : ∀ c ∈ a.preloaded, g.start ≤ c.start := by
    intro c hc
    have : c.start ∈ a.preloaded.map (·.start) := List.mem_map_of_mem hc
    rw [hst] at this
    obtain ⟨y, hy, e⟩ := List.mem_map.mp this
    have := h.ge y (h.sub y hy)
    omega
  have hxg := h.ge x hx
  rcases search_sorted (start := g.start) (by rw [hst]; exact h.sorted) hge off with ⟨k, c, h1, h2, h3⟩ | ⟨m, h1, h2, h3, h4⟩
  · refine .inl ⟨k, h1, ?_⟩
    have hk := (List.getElem?_eq_some_iff.mp h2).1
    have hk' : k < xs.length := by rw [← h.all.length]; exact hk
    obtain ⟨c', e1, e2⟩ := h.all.get hk'
    rw [h2] at e1
    cases e1
    have e3 := e2.1
    have hm := h.sub _ (List.getElem_mem hk')
    have hge' := hge c (List.mem_of_getElem? h2)
    have : xs[k].1 = x.1 := by omega
    rw [List.getElem?_eq_getElem hk']
    congr 1
    -- two clusters at the same place
    obtain ⟨i, hi⟩ := List.getElem?_of_mem hm
    obtain ⟨j, hj⟩ := List.getElem?_of_mem hx
    obtain ⟨i1, i2⟩ := List.getElem?_eq_some_iff.mp hi
    obtain ⟨j1, j2⟩ := List.getElem?_eq_some_iff.mp hj
    rw [List.pairwise_iff_getElem] at hcs
    rcases Nat.lt_trichotomy i j with hlt | rfl | hlt
    · have := hcs i j (by simpa using i1) (by simpa using j1) hlt
      simp only [List.getElem_map, i2, j2] at this
      omega
    · rw [hi] at hj; cases hj; rfl
    · have := hcs j i (by simpa using j1) (by simpa using i1) hlt
      simp only [List.getElem_map, i2, j2] at this
      omega
  · refine .inr ⟨m, h1, ?_⟩
    have hlen := h.all.length
    have ht := (h.all.take m).1.starts
    have hd := (h.all.take m).2.starts
    refine ⟨{ a with preloaded := a.preloaded.take m ++ { start := x.1, pos := x.1 } :: a.preloaded.drop m },
      xs.take m ++ x :: xs.drop m, ?_, ⟨h.seg, h.unloaded, ?_, ?_, ?_, h.ge⟩, ?_⟩
    · unfold Ahead.preload
      rw [h.seg, h.unloaded, List.length_nil, if_neg (by omega)]
      simp only [Nat.sub_zero]
      rw [show g.start + off.toNat = x.1 by omega]
    · exact (h.all.take m).1.append (.cons hl (h.all.take m).2)
    · have hs := h.sorted
      rw [← List.take_append_drop m xs, List.map_append, List.pairwise_append] at hs
      rw [List.map_append, List.map_cons, List.pairwise_append, List.pairwise_cons]
      have hlo : ∀ y ∈ (xs.take m).map (·.1), y < x.1 := by
        intro y hy
        rw [← ht] at hy
        obtain ⟨c, hc, rfl⟩ := List.mem_map.mp hy
        have := h3 c hc
        omega
      have hhi : ∀ y ∈ (xs.drop m).map (·.1), x.1 < y := by
        intro y hy
        rw [← hd] at hy
        obtain ⟨c, hc, rfl⟩ := List.mem_map.mp hy
        have := h4 c hc
        omega
      refine ⟨hs.1, ⟨hhi, hs.2.1⟩, fun y hy z hz => ?_⟩
      rcases List.mem_cons.mp hz with rfl | hz
      · exact hlo y hy
      · exact hs.2.2 y hy z hz
    · intro y hy
      rw [List.mem_append, List.mem_cons] at hy
      rcases hy with hy | rfl | hy
      · exact h.sub y (List.mem_of_mem_take hy)
      · exact hx
      · exact h.sub y (List.mem_of_mem_drop hy)
    · have : (xs.take m).length = m := by rw [List.length_take]; omega
      rw [List.getElem?_append_right (by omega), this, Nat.sub_self]
      rfl

theorem Knows.locate (h : Knows r scale g cs a xs) (hcs : (cs.map (·.1)).Pairwise (· < ·))
    {x : Nat × ClusterOf} (hx : x ∈ cs) (hl : Loaded r scale { start := x.1, pos := x.1 } x) {off : Int}
    (hoff : off = (x.1 : Int) - g.start) :
    ∃ a' ys k, a.locate off = .ok (a', some k) ∧ Knows r scale g cs a' ys ∧ ys[k]? = some x := by
  unfold Ahead.locate
  rw [h.table, h.seg]
  rcases h.found hcs hx hl hoff with ⟨k, h1, h2⟩ | ⟨m, h1, a', ys, h2, h3, h4⟩
  · rw [h1]; exact ⟨a, xs, k, rfl, h, h2⟩
  · rw [h1, Res.bind_ok]; simp only; rw [h2]; exact ⟨a', ys, m, rfl, h3, h4⟩

theorem Knows.get (h : Knows r scale g cs a xs) {k : Nat} {x : Nat × ClusterOf} (hx : xs[k]? = some x) :
    ∃ c, a.preloaded[k]? = some c ∧ a.table[k]? = some c ∧ Loaded r scale c x := by
  obtain ⟨hk, rfl⟩ := List.getElem?_eq_some_iff.mp hx
  obtain ⟨c, h1, h2⟩ := h.all.get hk
  exact ⟨c, h1, by rw [h.table]; exact h1, h2⟩

/-! ### The next cluster -/

theorem nextField_ok {stop pos len : Nat} (h : getUIntLength r (pos : Int) = .ok (0, len)) (hs : pos + len ≤ stop) :
    nextField r stop pos = .ok () := by
  unfold nextField
  rw [h]
  simp only
  unfold Res.assert
  rw [if_pos ⟨trivial, hs⟩]

/-- The search behind a cluster. -/
theorem aheadLoop_ok (hw : r.Whole) {p q stop F : Nat} {tl : Option (Nat × Nat)} (hst : g.stop = some stop) (hs : stop = r.data.length)
    (hF : stop + 1 - p ≤ F) (hc : SizedChain r scale p cs q) (ht : TailAt r q tl) :
    nextLoop r g stop F p = .ok (cs.head?.map (·.1)) := by
  have hr := hw.sane
  have hpl : p ≤ stop := by have := hc.le; have := ht.le; omega
  obtain ⟨k, rfl⟩ : ∃ k, F = k + 1 := ⟨F - 1, by omega⟩
  rw [nextLoop]
  cases hc with
  | nil =>
    rcases ht with ⟨h1, -⟩ | ⟨m, payload, h1, h2, -⟩
    · rw [if_neg (by omega)]; rfl
    · have hd := h1.head
      have hm := hd.m1
      have hl := hd.le
      rw [if_pos (by omega)]
      have hstep : nextStep r g stop p = .ok (some (.inr stop)) := by
        unfold nextStep
        rw [nextField_ok (hd.get1 hr) (by omega), Res.bind_ok, hd.readId]
        simp only
        rw [nextField_ok (hd.get2 hr) (by omega), Res.bind_ok, hd.readSize]
        simp only
        unfold Res.assert
        rw [if_pos (by omega), Res.bind_ok]
        by_cases h0 : payload.length = 0
        · rw [if_pos h0, show p + 4 + m = stop by omega]
        · rw [if_neg h0, if_neg (by decide), show p + 4 + m + payload.length = stop by omega]
      rw [hstep, Res.bind_ok]
      simp only
      obtain ⟨j, rfl⟩ : ∃ j, k = j + 1 := ⟨k - 1, by omega⟩
      rw [nextLoop, if_neg (by omega)]
      rfl
  | cons h hf rest =>
    rename_i len w cl cs' blocks
    have hd := h.head
    have hl := hd.le
    have htot := h.total
    have hfit := h.fit
    rw [if_pos (by omega)]
    have hstep : nextStep r g stop p = .ok (some (.inl p)) := by
      unfold nextStep
      rw [nextField_ok (hd.get1 hr) (by omega), Res.bind_ok, hd.readId]
      simp only
      rw [nextField_ok (hd.get2 hr) (by omega), Res.bind_ok, hd.readSize]
      simp only [if_true]
      unfold Res.assert
      rw [if_pos (by omega), Res.bind_ok, if_neg (by omega), h.hasBlocks hw hf (fun s hs' => by
        rw [hst] at hs'; cases hs'; omega)]
    rw [hstep]
    rfl

theorem nextPlace_ok (hw : r.Whole) {len w stop q : Nat} {x : Nat × ClusterOf} {blocks : Bytes} {tl : Option (Nat × Nat)}
    (hst : g.stop = some stop) (hs : stop = r.data.length) (h : ClusterIn r scale x.1 true x.2 len w blocks)
    (hc : SizedChain r scale (x.1 + len) cs q) (ht : TailAt r q tl) {c : ReadCluster} (hcx : c.start = x.1) :
    nextPlace r g c = .ok (cs.head?.map (·.1)) := by
  have hr := hw.sane
  have hd := h.head
  have hl := hd.le
  have htot := h.total
  have hfit := h.fit
  unfold nextPlace
  rw [hst]
  simp only
  rw [hcx, nextField_ok (hd.get1 hr) (by omega), Res.bind_ok, hd.readId]
  simp only
  rw [if_neg (by simp), nextField_ok (hd.get2 hr) (by omega), Res.bind_ok, hd.readSize]
  simp only [if_true]
  unfold Res.assert
  rw [if_pos (by omega), Res.bind_ok, show x.1 + 4 + 8 + (2 + w + blocks.length) = x.1 + len by omega]
  exact aheadLoop_ok hw hst hs (Nat.le_refl _) hc ht

/-- The next cluster of a preloaded one. -/
theorem Knows.getNext (hw : r.Whole) (h : Knows r scale g cs a xs) {stop p q : Nat} {tl : Option (Nat × Nat)}
    (hst : g.stop = some stop) (hs : stop = r.data.length) (hp : g.start < p) {pre post : List (Nat × ClusterOf)} {x : Nat × ClusterOf}
    (he : cs = pre ++ x :: post) (hc : SizedChain r scale p cs q) (ht : TailAt r q tl) {k : Nat} (hx : xs[k]? = some x) :
    (post = [] ∧ a.getNext r k = .ok (a, none)) ∨
    ∃ y post' a' ys k', post = y :: post' ∧ a.getNext r k = .ok (a', some k') ∧ Knows r scale g cs a' ys ∧ ys[k']? = some y := by
  have hc' := hc
  rw [he] at hc'
  obtain ⟨len, w, blocks, h1, h2, h3, h4⟩ := hc'.split
  obtain ⟨c, e1, -, e3⟩ := h.get hx
  have hn := nextPlace_ok hw hst hs h1 h4 ht e3.1
  unfold Ahead.getNext
  rw [h.seg, h.unloaded, List.length_nil, if_neg (by omega), Nat.sub_zero, e1]
  simp only
  rw [hn, Res.bind_ok]
  cases post with
  | nil => exact .inl ⟨rfl, rfl⟩
  | cons y post' =>
    right
    obtain ⟨-, hge⟩ := hc.sorted
    have hy : y ∈ cs := by rw [he]; simp
    have := hge y hy
    obtain ⟨len', w', blocks', g1, g2, -, -⟩ := SizedChain.split (pre := pre ++ [x]) (x := y) (post := post') (by
      rw [List.append_assoc, List.singleton_append]; exact hc')
    simp only [List.head?_cons, Option.map_some]
    rw [if_neg (by omega)]
    rcases h.found hc.sorted.1 hy (g1.fresh hw g2) (off := (y.1 : Int) - g.start) rfl with ⟨k', s1, s2⟩ | ⟨m, s1, a', ys, s2, s3, s4⟩
    · rw [s1]
      exact ⟨y, post', a, xs, k', rfl, by rw [Res.bind_ok]; simp only [Nat.zero_add], h, s2⟩
    · rw [s1, Res.bind_ok]
      simp only
      rw [Nat.zero_add, s2]
      exact ⟨y, post', a', ys, m, rfl, rfl, s3, s4⟩

theorem playAhead_none (rounds fuel : Nat) (a : Ahead) : playAhead r rounds fuel a none = .ok (a, []) := by
  cases fuel <;> rfl

/-- Playing on from a cluster. -/
theorem playAhead_ok (hw : r.Whole) {stop p q rounds : Nat} {tl : Option (Nat × Nat)}
    (hst : g.stop = some stop) (hs : stop = r.data.length) (hp : g.start < p) (hc : SizedChain r scale p cs q) (ht : TailAt r q tl)
    (hrounds : r.data.length ≤ rounds) : ∀ (post : List (Nat × ClusterOf)) {pre : List (Nat × ClusterOf)} {x : Nat × ClusterOf}
    {a : Ahead} {xs : List (Nat × ClusterOf)} {k fuel : Nat}, cs = pre ++ x :: post → Knows r scale g cs a xs → xs[k]? = some x →
    post.length < fuel →
    ∃ a' ys, playAhead r rounds fuel a (some k) =
      .ok (a', (((x :: post).map fun c => c.2.frames).flatten).map (Frame.asWatched scale)) ∧ Knows r scale g cs a' ys := by
  intro post
  induction post with
  | nil =>
    intro pre x a xs k fuel he hk hx hfuel
    obtain ⟨f, rfl⟩ : ∃ f, fuel = f + 1 := ⟨fuel - 1, by omega⟩
    obtain ⟨c, -, e2, -, c', es, done, rest, blocks, hl, hP, hd, hne⟩ := hk.get hx
    have hn := hc.count.2 x (by rw [he]; simp)
    rw [playAhead, e2]
    simp only
    rw [watchCluster_ok hw hl hP (by rw [hd]; exact hne) (by rw [hd]; omega), Res.bind_ok]
    rcases hk.getNext hw hst hs hp he hc ht hx with ⟨-, g1⟩ | ⟨y, post', a', ys, k', g0, -⟩
    · rw [g1, Res.bind_ok]
      simp only
      rw [playAhead_none, Res.bind_ok]
      exact ⟨a, xs, by rw [hd]; simp, hk⟩
    · cases g0
  | cons y post ih =>
    intro pre x a xs k fuel he hk hx hfuel
    obtain ⟨f, rfl⟩ : ∃ f, fuel = f + 1 := ⟨fuel - 1, by omega⟩
    obtain ⟨c, -, e2, -, c', es, done, rest, blocks, hl, hP, hd, hne⟩ := hk.get hx
    have hn := hc.count.2 x (by rw [he]; simp)
    rw [playAhead, e2]
    simp only
    rw [watchCluster_ok hw hl hP (by rw [hd]; exact hne) (by rw [hd]; omega), Res.bind_ok]
    rcases hk.getNext hw hst hs hp he hc ht hx with ⟨g0, -⟩ | ⟨y', post', a', ys, k', g0, g1, g2, g3⟩
    · cases g0
    · cases g0
      rw [g1, Res.bind_ok]
      simp only
      obtain ⟨a2, zs, i1, i2⟩ := ih (pre := pre ++ [x]) (by rw [List.append_assoc, List.singleton_append]; exact he) g2 g3
        (fuel := f) (by rw [List.length_cons] at hfuel; omega)
      rw [i1, Res.bind_ok]
      exact ⟨a2, zs, by rw [hd]; simp, i2⟩

end

end Verif.Par

/-
Lemmas for applications that read a file while it is arriving.
-/
import Verif.Lemmas.ArrivingSegment
import Verif.Spec.Arriving

namespace Verif.Par
open Verif Verif.Spec

theorem arrived_ext {file : Bytes} {total : Int} (ht : total < 0 ∨ (file.length : Int) ≤ total) (n : Nat) :
    (arrived file total n).Ext (arrived file total file.length) := by
  refine ⟨?_, rfl, rfl, ?_, (by simp only [arrived]; decide)⟩
  · simp only [arrived, List.take_length]
    exact List.take_prefix n file
  · simp only [arrived, List.take_length]
    exact ht

theorem needsMore_iff {c : Int} : needsMore c = true ↔ Waits c := by
  unfold needsMore Waits
  exact decide_eq_true_iff

/-! ### One call -/

variable {r R : Rdr}

/-- Two outcomes of a call on a cluster. -/
theorem settle_resumes {g : ReadSegment} {i : Nat} {c : ReadCluster}
    {call : Rdr → ReadCluster → Res (ReadCluster × Option Entry)} {whole : Rdr → ReadSegment → ReadSegment × Res (Option Entry)}
    (hw : ∀ q, whole q g = settle q g i c (call q c))
    (hagain : ∀ x, call r c = .err x → whole R (g.withCluster i (c.kept r)) =
      settle R (g.withCluster i (c.kept r)) i (c.kept r) (call R (c.kept r)))
    (h : r.Ext R) (ha : Agree (call r c) (call R c)) (hub : call R c ≠ .ub)
    (hk : ∀ x, ¬ Waits x → call r c = .err x → c.kept r = c.kept R)
    (hr : ∀ x, Waits x → call r c = .err x → call R (c.kept r) = call R c) :
    Resumes whole r R g := by
  unfold Resumes
  rw [hw r, hw R]
  cases hx : call r c with
  | ok y =>
    rw [ha.ok hx]
    exact .inl ⟨.refl _, .ok _⟩
  | ub =>
    rw [hx] at ha
    generalize call R c = X at ha hub
    cases ha
    exact absurd rfl hub
  | err x =>
    by_cases hwx : Waits x
    · right
      refine ⟨⟨x, hwx, rfl⟩, Fits.of_eq ?_⟩
      show whole R (g.withCluster i (c.kept r)) = _
      rw [hagain x hx, hr x hwx hx]
      cases hX : call R c with
      | ub => exact absurd hX hub
      | err y =>
        simp only [settle, ReadSegment.withCluster, List.set_set, c.kept_again h]
      | ok y =>
        simp only [settle, ReadSegment.withCluster, List.set_set]
    · left
      have hkk := hk x hwx hx
      rw [hx] at ha
      generalize call R c = X at ha hub
      cases ha with
      | same => simp only [settle, hkk]; exact ⟨.refl _, .err hwx⟩
      | waits hc X => exact absurd hc hwx
      | errs x y =>
        simp only [settle, hkk]
        exact ⟨⟨.refl _, .errs _ _⟩, .err hwx⟩

theorem withCluster_get {g : ReadSegment} {i : Nat} {c d : ReadCluster} (hi : g.clusters[i]? = some c) :
    (g.withCluster i d).clusters[i]? = some d := by
  obtain ⟨hlt, -⟩ := List.getElem?_eq_some_iff.mp hi
  simp only [ReadSegment.withCluster, List.getElem?_set_self hlt]

theorem ReadCluster.load_kept_same (h : r.Ext R) {c : ReadCluster} {x : Int} (hx : ¬ Waits x) (hl : c.load r = .err x) :
    c.kept r = c.kept R := by
  have ha := c.load_agree h
  unfold ReadCluster.kept
  rw [hl] at ha ⊢
  generalize c.load R = X at ha
  cases ha with
  | same => rfl
  | waits hc X => exact absurd hc hx
  | errs c d => rfl

theorem Res.map_agree {α β : Type} {x X : Res α} (f : α → β) (h : Agree x X) : Agree (x.map f) (X.map f) := by
  cases h with
  | same => exact .same _
  | waits hc X => exact .waits hc _
  | errs c d => exact .errs _ _

theorem Res.map_err_iff {α β : Type} {x : Res α} {f : α → β} {c : Int} : x.map f = .err c ↔ x = .err c := by
  cases x <;> simp [Res.map]

theorem Res.map_ub_iff {α β : Type} {x : Res α} {f : α → β} : x.map f = .ub ↔ x = .ub := by
  cases x <;> simp [Res.map]

theorem Resumes.map {α β : Type} {call : Rdr → ReadSegment → ReadSegment × Res α} {g : ReadSegment} (f : α → β)
    (h : Resumes call r R g) : Resumes (fun q k => ((call q k).1, (call q k).2.map f)) r R g := by
  have hf : ∀ {y Y : ReadSegment × Res α}, Fits y Y → Fits (y.1, y.2.map f) (Y.1, Y.2.map f) := by
    intro y Y hy
    refine ⟨hy.1, ?_⟩
    have h2 := hy.2
    generalize y.2 = x at h2
    generalize Y.2 = X at h2
    cases h2 with
    | same => exact .same _
    | errs c d => exact .errs _ _
  rcases h with ⟨h, hs⟩ | ⟨⟨c, hc, he⟩, h⟩
  · exact .inl ⟨hf h, fun c e => hs c (Res.map_err_iff.mp e)⟩
  · exact .inr ⟨⟨c, hc, by simp only [he]; rfl⟩, hf h⟩

theorem ReadCluster.getFirst_agree (h : r.Ext R) (c : ReadCluster) : Agree (c.getFirst r) (c.getFirst R) := by
  unfold ReadCluster.getFirst
  split
  · exact .same _
  · exact Agree.bind (c.parse_agree h) fun _ _ _ => .same _

theorem ReadCluster.getFirst_err {c : ReadCluster} {x : Int} (h : c.getFirst r = .err x) :
    c.entries.getD [] = [] ∧ c.parse r = .err x := by
  unfold ReadCluster.getFirst at h
  split at h
  · cases h
  · rename_i he
    refine ⟨he, ?_⟩
    cases hp : c.parse r with
    | ok y => rw [hp] at h; cases h
    | err y => rw [hp] at h; cases h; rfl
    | ub => rw [hp] at h; cases h

theorem ReadCluster.getNext_agree (h : r.Ext R) (c : ReadCluster) (idx : Nat) : Agree (c.getNext r idx) (c.getNext R idx) := by
  unfold ReadCluster.getNext
  refine Agree.bind (.same _) fun _ _ _ => ?_
  split
  · exact .same _
  · exact Agree.bind (c.parse_agree h) fun x _ _ => .same _

theorem ReadCluster.getNext_err {c : ReadCluster} {idx : Nat} {x : Int} (h : c.getNext r idx = .err x) :
    (c.entries.getD [])[idx + 1]? = none ∧ c.parse r = .err x := by
  unfold ReadCluster.getNext at h
  by_cases hi : idx < (c.entries.getD []).length
  · rw [Res.assert_pos hi] at h
    simp only [Res.bind_ok] at h
    split at h
    · cases h
    · rename_i he
      refine ⟨he, ?_⟩
      cases hp : c.parse r with
      | ok y =>
        rw [hp] at h
        obtain ⟨c', b⟩ := y
        simp only [Res.bind_ok] at h
        split at h
        · cases h
        · split at h <;> cases h
      | err y => rw [hp] at h; cases h; rfl
      | ub => rw [hp] at h; cases h
  · unfold Res.assert at h
    rw [if_neg hi] at h
    cases h

/-- One call. -/
theorem ask_resumes (h : r.Ext R) (fuel : Nat) (g : ReadSegment) (call : ApiCall) (hc : repeatable call = true)
    (hub : (ask R fuel g call).2 ≠ .ub) : Resumes (fun q k => ask q fuel k call) r R g := by
  cases call with
  | load => cases hc
  | trackFirst n => cases hc
  | trackNext n i e => cases hc
  | headers => exact (g.parseHeaders_resumes h).map _
  | loadCluster =>
    refine (Redo.resumes (ReadSegment.loadCluster_redo h fuel g ?_)).map _
    intro e
    exact hub (Res.map_ub_iff.mpr e)
  | timeCode i =>
    cases hi : g.clusters[i]? with
    | none => exact .inl (by simp only [ask, hi]; exact ⟨.refl _, .ok _⟩)
    | some c =>
      refine settle_resumes (i := i) (call := fun q c => (c.load q).map fun c' => (c', none)) (fun q => by simp only [ask, hi])
        (fun x _ => by simp only [ask, withCluster_get hi]) h (Res.map_agree _ (c.load_agree h)) ?_ ?_ ?_
      · intro e
        apply hub
        simp only [ask, hi]
        rw [e]
        rfl
      · intro x hx e
        exact ReadCluster.load_kept_same h hx (Res.map_err_iff.mp e)
      · intro x _ e
        simp only [c.load_again h]
  | first i =>
    cases hi : g.clusters[i]? with
    | none => exact .inl (by simp only [ask, perform, hi]; exact ⟨.refl _, .ok _⟩)
    | some c =>
      refine settle_resumes (i := i) (call := fun q c => c.getFirst q) (fun q => by simp only [ask, perform, hi])
        (fun x _ => by simp only [ask, perform, withCluster_get hi]) h (c.getFirst_agree h) ?_ ?_ ?_
      · intro e
        apply hub
        simp only [ask, perform, hi]
        rw [e]
        rfl
      · intro x hx e
        exact ReadCluster.kept_same h (ReadCluster.getFirst_err e).2 hx
      · intro x _ e
        have he := (ReadCluster.getFirst_err e).1
        unfold ReadCluster.getFirst
        rw [c.kept_entries, he, c.parse_again h]
  | next i idx =>
    cases hi : g.clusters[i]? with
    | none => exact .inl (by simp only [ask, perform, hi]; exact ⟨.refl _, .ok _⟩)
    | some c =>
      by_cases hlt : idx < (c.entries.getD []).length
      · refine settle_resumes (i := i) (call := fun q c => c.getNext q idx) (fun q => by simp only [ask, perform, hi, if_pos hlt])
          (fun x _ => by simp only [ask, perform, withCluster_get hi, c.kept_entries, if_pos hlt]) h (c.getNext_agree h idx) ?_ ?_ ?_
        · intro e
          apply hub
          simp only [ask, perform, hi, if_pos hlt]
          rw [e]
          rfl
        · intro x hx e
          exact ReadCluster.kept_same h (ReadCluster.getNext_err e).2 hx
        · intro x _ e
          have he := (ReadCluster.getNext_err e).1
          unfold ReadCluster.getNext
          rw [c.kept_entries, he, c.parse_again h]
      · exact .inl (by simp only [ask, perform, hi, if_neg hlt]; exact ⟨.refl _, .ok _⟩)
  | last i =>
    cases hi : g.clusters[i]? with
    | none => exact .inl (by simp only [ask, perform, hi]; exact ⟨.refl _, .ok _⟩)
    | some c =>
      have hub' : (ReadCluster.getLast R fuel c).2 ≠ .ub := by
        intro e
        apply hub
        simp only [ask, perform, hi, e]
      refine Redo.resumes ?_
      cases ReadCluster.getLast_redo h fuel c hub' with
      | same he hs => exact .same (by simp only [ask, perform, hi, he]) (by simp only [ask, perform, hi]; exact hs)
      | errs x y hn he hc hd =>
        exact .errs x y hn (by simp only [ask, perform, hi, he]) (by simp only [ask, perform, hi]; exact hc)
          (by simp only [ask, perform, hi]; exact hd)
      | wait x hw hc he =>
        refine .wait x hw (by simp only [ask, perform, hi]; exact hc) ?_
        simp only [ask, perform, hi, withCluster_get hi, he]
        simp only [ReadSegment.withCluster, List.set_set]

/-! ### Calls on segments that are alike -/

theorem ReadSegment.loadUnknownSize_tracks (ts : Option (List ReadTrack)) (g : ReadSegment) :
    { g with tracks := ts }.loadUnknownSize r = ({ (g.loadUnknownSize r).1 with tracks := ts }, (g.loadUnknownSize r).2) := by
  cases hu : g.unknown with
  | false => simp only [ReadSegment.loadUnknownSize, hu]
  | true =>
    cases hl : g.clusters.getLast? with
    | none => simp only [ReadSegment.loadUnknownSize, hu, hl]
    | some c =>
      simp only [ReadSegment.loadUnknownSize, hu, hl]
      cases c.parse r with
      | err x => rfl
      | ub => simp only [hu]
      | ok y =>
        obtain ⟨c', b⟩ := y
        cases b with
        | false => rfl
        | true => cases hs : c'.size <;> simp only [hs]

theorem ReadSegment.takeCluster_tracks (ts : Option (List ReadTrack)) (g : ReadSegment) (a b : Nat) (n : Option Nat) (has : Bool) :
    { g with tracks := ts }.takeCluster r a b n has =
      ({ (g.takeCluster r a b n has).1 with tracks := ts }, (g.takeCluster r a b n has).2) := by
  unfold ReadSegment.takeCluster
  cases has with
  | true => cases n <;> rfl
  | false =>
    simp only [Bool.false_eq_true, if_false]
    rw [show ReadSegment.stop { g with tracks := ts } = g.stop from rfl]
    by_cases h1 : atEnd r (b + n.getD 0)
    · simp only [if_pos h1]
    · simp only [if_neg h1]
      by_cases h2 : reached g.stop (b + n.getD 0)
      · simp only [if_pos h2]
      · simp only [if_neg h2]

theorem ReadSegment.doLoadCluster_tracks (ts : Option (List ReadTrack)) (g : ReadSegment) :
    { g with tracks := ts }.doLoadCluster r = ({ (g.doLoadCluster r).1 with tracks := ts }, (g.doLoadCluster r).2) := by
  by_cases h1 : g.pos < 0
  · unfold ReadSegment.doLoadCluster
    rw [if_pos h1, if_pos h1]
    exact g.loadUnknownSize_tracks ts
  by_cases h2 : r.total ≥ 0 ∧ (r.data.length : Int) > r.total
  · unfold ReadSegment.doLoadCluster
    rw [if_neg h1, if_pos h2, if_neg h1, if_pos h2]
  have e := scanLoop_dress (r := r) ts g.pos (r.data.length + 1 - g.pos.toNat) g g.pos.toNat
  unfold ReadSegment.doLoadCluster
  rw [if_neg h1, if_neg h2, if_neg h1, if_neg h2]
  rw [show ({ g with tracks := ts } : ReadSegment) = g.dress ts g.pos from rfl]
  rw [show (g.dress ts g.pos).pos = g.pos from rfl, e]
  generalize scanLoop r (r.data.length + 1 - g.pos.toNat) g g.pos.toNat = y
  obtain ⟨g1, x⟩ := y
  cases x with
  | err c => rfl
  | ub => rfl
  | ok x =>
    cases x with
    | none => rfl
    | some x =>
      obtain ⟨a, b, n⟩ := x
      simp only
      rw [show ReadSegment.stop { g1 with tracks := ts } = g1.stop from rfl]
      cases hasBlockEntries r g1.stop a with
      | err c => rfl
      | ub => rfl
      | ok has => exact g1.takeCluster_tracks ts a b n has

theorem ReadSegment.loadCluster_tracks (ts : Option (List ReadTrack)) : ∀ (f : Nat) (g : ReadSegment),
    ReadSegment.loadCluster r f { g with tracks := ts } =
      ({ (ReadSegment.loadCluster r f g).1 with tracks := ts }, (ReadSegment.loadCluster r f g).2)
  | 0, _ => rfl
  | f + 1, g => by
    rw [ReadSegment.loadCluster, ReadSegment.loadCluster, g.doLoadCluster_tracks ts]
    generalize g.doLoadCluster r = y
    obtain ⟨g1, x⟩ := y
    cases x with
    | err c => rfl
    | ub => rfl
    | ok n =>
      simp only
      by_cases hn : n ≤ 1
      · rw [if_pos hn, if_pos hn]
      · rw [if_neg hn, if_neg hn]
        exact ReadSegment.loadCluster_tracks ts f g1

theorem settle_tracks (ts : Option (List ReadTrack)) (g : ReadSegment) (i : Nat) (c : ReadCluster)
    (x : Res (ReadCluster × Option Entry)) :
    settle r { g with tracks := ts } i c x = ({ (settle r g i c x).1 with tracks := ts }, (settle r g i c x).2) := by
  cases x with
  | ok y => rfl
  | err c => rfl
  | ub => rfl

theorem fits_of_tracks {α : Type} {call : ReadSegment → ReadSegment × Res α}
    (h : ∀ ts k, call { k with tracks := ts } = ({ (call k).1 with tracks := ts }, (call k).2)) {g G : ReadSegment}
    (hg : Alike g G) : Fits (call g) (call G) := by
  obtain ⟨ts, rfl, ht⟩ := hg
  have e : (call g).1.tracks = g.tracks := congrArg (·.1.tracks) (h g.tracks g)
  have e' := h ts g
  generalize call { g with tracks := ts } = Y at e'
  subst e'
  exact ⟨⟨ts, rfl, ht.trans (by rw [e])⟩, .same _⟩

theorem ask_alike (h : r.Ext r) (fuel : Nat) {g G : ReadSegment} (hg : Alike g G) (call : ApiCall) (hc : repeatable call = true) :
    Fits (ask r fuel g call) (ask r fuel G call) := by
  cases call with
  | load => cases hc
  | trackFirst n => cases hc
  | trackNext n i e => cases hc
  | headers =>
    have := ReadSegment.parseHeaders_alike h hg
    refine ⟨this.1, ?_⟩
    have h2 := this.2
    simp only [ask, perform]
    generalize (g.parseHeaders r).2 = x at h2
    generalize (G.parseHeaders r).2 = X at h2
    cases h2 with
    | same => exact .same _
    | errs c d => exact .errs _ _
  | loadCluster =>
    refine fits_of_tracks (call := fun k => ask r fuel k .loadCluster) (fun ts k => ?_) hg
    simp only [ask, perform, ReadSegment.loadCluster_tracks]
  | timeCode i =>
    refine fits_of_tracks (call := fun k => ask r fuel k (.timeCode i)) (fun ts k => ?_) hg
    cases hi : k.clusters[i]? with
    | none => simp only [ask, hi]
    | some c => simp only [ask, hi, settle_tracks]
  | first i =>
    refine fits_of_tracks (call := fun k => ask r fuel k (.first i)) (fun ts k => ?_) hg
    cases hi : k.clusters[i]? with
    | none => simp only [ask, perform, hi]
    | some c => simp only [ask, perform, hi, settle_tracks]
  | next i idx =>
    refine fits_of_tracks (call := fun k => ask r fuel k (.next i idx)) (fun ts k => ?_) hg
    cases hi : k.clusters[i]? with
    | none => simp only [ask, perform, hi]
    | some c =>
      simp only [ask, perform, hi, settle_tracks]
      split <;> rfl
  | last i =>
    refine fits_of_tracks (call := fun k => ask r fuel k (.last i)) (fun ts k => ?_) hg
    cases hi : k.clusters[i]? with
    | none => simp only [ask, perform, hi]
    | some c => simp only [ask, perform, hi, ReadSegment.withCluster]

/-! ### Patience -/

theorem patiently_fits {file : Bytes} {total : Int} (ht : total < 0 ∨ (file.length : Int) ≤ total) (fuel : Nat) (call : ApiCall)
    (hc : repeatable call = true) : ∀ (ns : List Nat) {g G : ReadSegment}, Alike g G →
    (ask (arrived file total file.length) fuel G call).2 ≠ .ub →
    Fits (patiently file total fuel call ns g) (ask (arrived file total file.length) fuel G call)
  | [], g, G, hg, _ => ask_alike (arrived_ext ht _) fuel hg call hc
  | n :: ns, g, G, hg, hub => by
    have hGg := ask_alike (arrived_ext ht file.length) fuel hg call hc
    have hub' : (ask (arrived file total file.length) fuel g call).2 ≠ .ub := by
      intro e
      have := hGg.2
      rw [e] at this
      generalize (ask (arrived file total file.length) fuel G call).2 = X at this hub
      cases this
      exact hub rfl
    have h := ask_resumes (arrived_ext ht n) fuel g call hc hub'
    have ha := arrived_ext ht n
    unfold patiently
    rcases h with ⟨h, hset⟩ | ⟨⟨c, hw, he⟩, h⟩
    · simp only at h hset
      generalize hy : ask (arrived file total n) fuel g call = y at h hset
      obtain ⟨g', x⟩ := y
      cases x with
      | ok e => exact h.trans hGg
      | ub => exact h.trans hGg
      | err c =>
        simp only
        rw [if_neg fun hn => hset c rfl (needsMore_iff.mp hn)]
        exact h.trans hGg
    · simp only at he h
      generalize ask (arrived file total n) fuel g call = y at he h
      obtain ⟨g', x⟩ := y
      simp only at he h
      subst he
      simp only
      rw [if_pos (needsMore_iff.mpr hw)]
      have hub2 : (ask (arrived file total file.length) fuel g' call).2 ≠ .ub := by
        intro e
        have := h.2
        rw [e] at this
        generalize (ask (arrived file total file.length) fuel g call).2 = X at this hub'
        cases this
        exact hub' rfl
      exact (patiently_fits ht fuel call hc ns (.refl g') hub2).trans (h.trans hGg)

theorem Same.answer {α : Type} {x X : Res α} (h : Same x X) : SameAnswer x X := by
  cases h with
  | same => exact .inl rfl
  | errs c d => exact .inr ⟨c, d, rfl, rfl⟩

theorem Alike.without {g G : ReadSegment} (h : Alike g G) : withoutEncodings g = withoutEncodings G := by
  obtain ⟨ts, rfl, h⟩ := h
  unfold withoutEncodings
  simp only
  congr 1
  exact h.symm

theorem streamed_fits {file : Bytes} {total : Int} (ht : total < 0 ∨ (file.length : Int) ≤ total) (fuel : Nat) :
    ∀ (calls : List (ApiCall × List Nat)) {g G : ReadSegment}, Alike g G → (∀ x ∈ calls, repeatable x.1 = true) →
    (∀ x ∈ (atOnce file total fuel G (calls.map (·.1))).2, x ≠ .ub) →
    withoutEncodings (streamed file total fuel g calls).1 = withoutEncodings (atOnce file total fuel G (calls.map (·.1))).1 ∧
      SameAnswers (streamed file total fuel g calls).2 (atOnce file total fuel G (calls.map (·.1))).2
  | [], _, _, hg, _, _ => ⟨hg.without, rfl, fun z hz => (by cases hz)⟩
  | (call, ns) :: rest, g, G, hg, hc, hub => by
    have h1 := patiently_fits ht fuel call (hc _ List.mem_cons_self) ns hg (hub _ List.mem_cons_self)
    have h2 := streamed_fits ht fuel rest h1.1 (fun x hx => hc x (List.mem_cons_of_mem _ hx))
      (fun x hx => hub x (List.mem_cons_of_mem _ hx))
    refine ⟨h2.1, congrArg (· + 1) h2.2.1, fun z hz => ?_⟩
    rcases List.mem_cons.mp hz with rfl | hz
    · exact h1.2.answer
    · exact h2.2.2 z hz

theorem createdPatiently_same {file : Bytes} {total : Int} (ht : total < 0 ∨ (file.length : Int) ≤ total) (pos : Nat) :
    ∀ ns : List Nat, SameAnswer (createdPatiently file total pos ns) (createInstance (arrived file total file.length) pos)
  | [] => .inl rfl
  | n :: ns => by
    have h := createInstance_agree (arrived_ext ht n) pos
    unfold createdPatiently
    cases hx : createInstance (arrived file total n) pos with
    | ok g => exact .inl (h.ok hx).symm
    | ub =>
      rw [hx] at h
      generalize createInstance (arrived file total file.length) pos = X at h
      cases h
      exact .inl rfl
    | err c =>
      simp only
      by_cases hn : needsMore c = true
      · rw [if_pos hn]
        exact createdPatiently_same ht pos ns
      · rw [if_neg hn]
        rw [hx] at h
        generalize createInstance (arrived file total file.length) pos = X at h
        cases h with
        | same => exact .inl rfl
        | waits hc X => exact absurd (needsMore_iff.mpr hc) hn
        | errs c d => exact .inr ⟨c, d, rfl, rfl⟩

/-! ### The EBML header -/

theorem positiveUInt_ext {r R : Rdr} (h : r.Ext R) {d : Hdr} (hp : d.pos + d.size ≤ r.data.length) :
    positiveUInt r d.pos d.size = positiveUInt R d.pos d.size := by
  unfold positiveUInt
  rw [unserializeUInt_ext h hp]

theorem ebmlHeadStep_ext {r R : Rdr} (h : r.Ext R) {d : Hdr} (hp : d.pos + d.size ≤ r.data.length) (p : Nat) (e : EbmlHead) :
    ebmlHeadStep r p d e = ebmlHeadStep R p d e := by
  unfold ebmlHeadStep
  rw [positiveUInt_ext h hp, unserializeString_ext h hp]

theorem ebmlHeadStep_safe {r : Rdr} (hr : r.Fails) (p : Nat) (d : Hdr) (e : EbmlHead) : Safe (ebmlHeadStep r p d e) := by
  unfold ebmlHeadStep
  repeat' first | exact positiveUInt_safe hr _ _ | safe_step hr

/-- What `EBMLHeader::Parse` answers if there is not enough. -/
def HeadWaits (r : Rdr) (x : Res HeadResult) : Prop :=
  x = .err E_BUFFER_NOT_FULL ∨ ∃ n, r.data.length < n ∧ x = .ok (.need n)

theorem ebmlHeadPayload_same {r R : Rdr} (h : r.Ext R) (pos size : Nat) :
    Same (ebmlHeadPayload r pos size) (ebmlHeadPayload R pos size) ∨ HeadWaits r (ebmlHeadPayload r pos size) := by
  have hl := h.len
  unfold ebmlHeadPayload
  rw [h.total]
  by_cases h1 : r.total ≥ 0 ∧ r.total - pos < size
  · rw [if_pos h1, if_pos h1]
    exact .inl (.same _)
  rw [if_neg h1, if_neg h1]
  by_cases h2 : (r.data.length : Int) - pos < size
  · rw [if_pos h2]
    exact .inr (.inr ⟨_, by omega, rfl⟩)
  have h3 : ¬ (R.data.length : Int) - pos < size := by omega
  rw [if_neg h2, if_neg h3]
  have hw := walk_same h (stop := pos + size) (by omega) (step := ebmlHeadStep r) (Step := ebmlHeadStep R)
    (fun p d s hd => .of_eq (ebmlHeadStep_ext h (by omega) p s)) (fun p d s => ebmlHeadStep_safe h.small p d s)
    (fun p d s => ebmlHeadStep_safe h.big p d s) size pos {} (by omega)
  refine .inl ?_
  generalize walk r (pos + size) (ebmlHeadStep r) pos {} = x at hw
  generalize walk R (pos + size) (ebmlHeadStep R) pos {} = X at hw
  cases hw with
  | same => exact .same _
  | errs c d => exact .errs c d

theorem ebmlHeadSize_same {r R : Rdr} (h : r.Ext R) {pos : Nat} (hp : pos ≤ r.data.length) (h0 : 0 < pos) :
    Same (ebmlHeadSize r pos) (ebmlHeadSize R pos) ∨ HeadWaits r (ebmlHeadSize r pos) := by
  have hl := h.len
  unfold ebmlHeadSize
  rcases Nat.lt_or_ge pos r.data.length with hlt | hge
  · rw [← getUIntLength_there h hlt]
    cases hg : getUIntLength r pos with
    | err c => exact .inl (.same _)
    | ub => exact .inl (.same _)
    | ok x =>
      obtain ⟨result, len⟩ := x
      obtain ⟨rfl, b, hb, rfl⟩ := getUIntLength_first hlt hg
      simp only
      have n0 : ¬ (0 : Int) > 0 := by omega
      rw [h.total, if_neg n0, if_neg n0]
      by_cases h1 : announced b < 1 ∨ announced b > 8
      · rw [if_pos h1, if_pos h1]
        exact .inl (.same _)
      rw [if_neg h1, if_neg h1]
      by_cases h2 : r.total ≥ 0 ∧ r.total - pos < announced b
      · rw [if_pos h2, if_pos h2]
        exact .inl (.same _)
      rw [if_neg h2, if_neg h2]
      by_cases h3 : (r.data.length : Int) - pos < announced b
      · rw [if_pos h3]
        exact .inr (.inr ⟨_, by omega, rfl⟩)
      have h4 : ¬ (R.data.length : Int) - pos < announced b := by omega
      rw [if_neg h3, if_neg h4, ← readUInt_ext h hb (by omega)]
      cases readUInt r pos with
      | err c => exact .inl (.same _)
      | ub => exact .inl (.same _)
      | ok y => exact ebmlHeadPayload_same h _ _
  · have e : getUIntLength r pos = .ok ((pos : Int), 1) := by
      have := h.less
      have n1 : ¬ (pos : Int) < 0 := by omega
      have n2 : ¬ (r.total ≥ 0 ∧ (r.data.length : Int) > r.total) := by omega
      have n3 : (pos : Int) ≥ r.data.length := by omega
      unfold getUIntLength
      rw [if_neg n1, if_neg n2, if_pos n3]
    rw [e]
    simp only
    have n1 : (pos : Int) > 0 := by omega
    rw [if_pos n1]
    exact .inr (.inl rfl)

theorem ebmlHeadParse_arriving {r R : Rdr} (h : r.Ext R) (hb : R.data[0]? = some 0x1A) (hn : 4 ≤ r.data.length) :
    Same (ebmlHeadParse r) (ebmlHeadParse R) ∨ HeadWaits r (ebmlHeadParse r) := by
  have hl := h.len
  have hB : R.byte 0 = .ok 0x1A := by unfold Rdr.byte; rw [hb]
  have hb' : r.byte 0 = .ok 0x1A := by rw [h.byte (by omega), hB]
  have hs : ∀ q : Rdr, 4 ≤ q.data.length → q.byte 0 = .ok 0x1A → scanByte q 0 (min 1024 q.data.length) = .ok 0 := by
    intro q hq e
    obtain ⟨m, hm⟩ : ∃ m, min 1024 q.data.length = m + 1 := ⟨min 1024 q.data.length - 1, by omega⟩
    rw [hm]
    unfold scanByte
    rw [e]
    rfl
  unfold ebmlHeadParse
  rw [hs r hn hb', hs R (by omega) hB]
  simp only
  have hid := readID_ext h (p := 0) hb' (by have : announced 0x1A = 4 := by decide +kernel
                                            omega)
  rw [show readID r ((0 : Nat) : Int) = readID R ((0 : Nat) : Int) from hid]
  cases readID R ((0 : Nat) : Int) with
  | err c => exact .inl (.same _)
  | ub => exact .inl (.same _)
  | ok x =>
    obtain ⟨id, len⟩ := x
    simp only
    by_cases h1 : len ≠ 4 ∨ id ≠ kMkvEBML
    · rw [if_pos h1, if_pos h1]
      exact .inl (.same _)
    · rw [if_neg h1, if_neg h1]
      exact ebmlHeadSize_same h (by omega) (by omega)

theorem headPatiently_same {file : Bytes} {total : Int} (ht : total < 0 ∨ (file.length : Int) ≤ total)
    (hb : file[0]? = some 0x1A) (hl : 4 ≤ file.length) :
    ∀ ns : List Nat, (∀ n ∈ ns, 4 ≤ n) → SameAnswer (headPatiently file total ns) (ebmlHeadParse (arrived file total file.length))
  | [], _ => .inl rfl
  | n :: ns, hns => by
    have hx := arrived_ext ht n
    have h4 : 4 ≤ (arrived file total n).data.length := by
      have := hns n List.mem_cons_self
      simp only [arrived, List.length_take]
      omega
    have h := ebmlHeadParse_arriving hx (by simp only [arrived, List.take_length]; exact hb) h4
    have ih := headPatiently_same ht hb hl ns fun m hm => hns m (List.mem_cons_of_mem _ hm)
    unfold headPatiently
    rcases h with h | h | ⟨m, hm, h⟩
    · generalize ebmlHeadParse (arrived file total n) = x at h
      generalize hX : ebmlHeadParse (arrived file total file.length) = X at h ih ⊢
      cases h with
      | errs c d =>
        simp only
        by_cases hn : needsMore c = true
        · rw [if_pos hn]; exact ih
        · rw [if_neg hn]; exact .inr ⟨c, d, rfl, rfl⟩
      | same =>
        cases x with
        | ub => exact .inl rfl
        | err c =>
          simp only
          by_cases hn : needsMore c = true
          · rw [if_pos hn]; exact ih
          · rw [if_neg hn]; exact .inl rfl
        | ok y =>
          cases y with
          | done p e => exact .inl rfl
          | need m => exact ih
    · rw [h]; exact ih
    · rw [h]; exact ih

/-! ### When the file is all there -/

theorem sound_none {r : Rdr} {file : Bytes} : Sound r file (.ok none) := ⟨fun e => (by cases e), fun _ e => (by cases e)⟩

theorem sound_err {r : Rdr} {file : Bytes} {c : Int} : Sound r file (.err c) := ⟨fun e => (by cases e), fun _ e => (by cases e)⟩

theorem ask_ok {r : Rdr} {file : Bytes} (ho : Opened r file) {fuel : Nat} (hf : file.length < fuel) {g : ReadSegment}
    (h : g.Ok r) (call : ApiCall) : Sound r file (ask r fuel g call).2 ∧ (ask r fuel g call).1.Ok r := by
  have hp := perform_ok ho hf h call
  cases call with
  | timeCode i =>
    simp only [ask]
    simp only [perform] at hp
    cases hi : g.clusters[i]? with
    | none => exact ⟨sound_none, h⟩
    | some c =>
      simp only [hi] at hp ⊢
      unfold ReadCluster.getTimeCode at hp
      cases hl : c.load r with
      | ub =>
        rw [hl] at hp
        exact absurd rfl hp.1.1
      | ok c' =>
        rw [hl] at hp
        exact ⟨sound_none, hp.2⟩
      | err x =>
        rw [hl] at hp
        refine ⟨sound_err, ?_⟩
        simp only [Res.map, settle] at hp ⊢
        have : c.kept r = c := by unfold ReadCluster.kept; rw [hl]
        rw [this]
        exact hp.2
  | _ => exact hp

theorem whole_opened (file : Bytes) : Opened (arrived file file.length file.length) file :=
  ⟨by simp [arrived], rfl, by simp only [arrived]; decide⟩

theorem atOnce_ok {file : Bytes} {fuel : Nat} (hf : file.length < fuel) : ∀ (calls : List ApiCall) {g : ReadSegment},
    g.Ok (arrived file file.length file.length) → ∀ x ∈ (atOnce file file.length fuel g calls).2,
      Sound (arrived file file.length file.length) file x
  | [], _, _, x, hx => (by cases hx)
  | call :: rest, g, h, x, hx => by
    have hk := ask_ok (whole_opened file) hf h call
    rcases List.mem_cons.mp hx with rfl | hx
    · exact hk.1
    · exact atOnce_ok hf rest hk.2 x hx

theorem sameAnswers_mem {α : Type} : ∀ {xs ys : List (Res α)}, SameAnswers xs ys → ∀ x ∈ xs, ∃ y ∈ ys, SameAnswer x y
  | [], _, _, x, hx => (by cases hx)
  | _ :: _, [], h, x, hx => absurd h.1 (by simp)
  | a :: xs, b :: ys, h, x, hx => by
    rcases List.mem_cons.mp hx with rfl | hx
    · exact ⟨b, List.mem_cons_self, h.2 (x, b) (by simp)⟩
    · obtain ⟨y, hy, hs⟩   := sameAnswers_mem (xs := xs) (ys := ys)
        ⟨by have := h.1; simpa using this, fun z hz => h.2 z (List.mem_cons_of_mem _ hz)⟩ x hx
      exact ⟨y, List.mem_cons_of_mem _ hy, hs⟩

theorem _root_.Verif.Spec.SameAnswer.sound {r : Rdr} {file : Bytes} {x y : Res (Option Entry)} (h : SameAnswer x y) (hy : Sound r file y) :
    Sound r file x := by
  rcases h with rfl | ⟨c, d, rfl, rfl⟩
  · exact hy
  · exact sound_err

/-! ### `Load`, call by call -/

theorem loadAll_atOnce {file : Bytes} {total : Int} {fuel : Nat} : ∀ (f : Nat) {g g' : ReadSegment},
    ReadSegment.loadAll (arrived file total file.length) fuel f g = (g', .ok ()) →
    ∃ k, (atOnce file total fuel g (List.replicate k .loadCluster)).1 = g' ∧
      ∀ x ∈ (atOnce file total fuel g (List.replicate k .loadCluster)).2, x = .ok none
  | 0, _, _, h => by cases h
  | f + 1, g, g', h => by
    rw [ReadSegment.loadAll] at h
    rcases hl : ReadSegment.loadCluster (arrived file total file.length) fuel g with ⟨g1, x⟩
    rw [hl] at h
    have ha : ask (arrived file total file.length) fuel g .loadCluster = (g1, x.map fun _ => none) := by
      simp only [ask, perform, hl]
    cases x with
    | err c => cases h
    | ub => cases h
    | ok b =>
      cases b with
      | false =>
        have : g1 = g' := congrArg (·.1) h
        refine ⟨1, ?_, fun x hx => ?_⟩
        · simp only [List.replicate_one, atOnce, ha, this]
        · simp only [List.replicate_one, atOnce, ha, List.mem_singleton] at hx
          rw [hx]
          rfl
      | true =>
        obtain ⟨k, h1, h2⟩ := loadAll_atOnce f h
        refine ⟨k + 1, ?_, fun x hx => ?_⟩
        · simp only [List.replicate_succ, atOnce, ha]
          exact h1
        · simp only [List.replicate_succ, atOnce, ha, List.mem_cons] at hx
          rcases hx with rfl | hx
          · rfl
          · exact h2 x hx

theorem load_atOnce {file : Bytes} {total : Int} {fuel : Nat} {g g' : ReadSegment}
    (h : g.load (arrived file total file.length) fuel = (g', .ok ())) :
    ∃ k, (atOnce file total fuel g (.headers :: List.replicate k .loadCluster)).1 = g' ∧
      ∀ x ∈ (atOnce file total fuel g (.headers :: List.replicate k .loadCluster)).2, x = .ok none := by
  unfold ReadSegment.load at h
  split at h
  · cases h
  rcases hp : g.parseHeaders (arrived file total file.length) with ⟨g1, x⟩
  rw [hp] at h
  have ha : ask (arrived file total file.length) fuel g .headers = (g1, x.map fun _ => none) := by
    simp only [ask, perform, hp]
  cases x with
  | err c => cases h
  | ub => cases h
  | ok b =>
    obtain ⟨k, h1, h2⟩ := loadAll_atOnce _ h
    refine ⟨k, ?_, fun x hx => ?_⟩
    · simp only [atOnce, ha]
      exact h1
    · simp only [atOnce, ha, List.mem_cons] at hx
      rcases hx with rfl | hx
      · rfl
      · exact h2 x hx

theorem watchClusters_like {r : Rdr} {g G : ReadSegment} (h : G.clusters = g.clusters) (rounds : Nat) :
    ∀ (fuel : Nat) (idx : Option Nat), watchClusters r g rounds fuel idx = watchClusters r G rounds fuel idx
  | 0, none | _ + 1, none => rfl
  | 0, some _ => rfl
  | f + 1, some idx => by
    simp only [watchClusters, ReadSegment.getNext, h]
    cases g.clusters[idx]? with
    | none => rfl
    | some c =>
      simp only
      congr 1
      funext fs
      rw [watchClusters_like h rounds f]

theorem watch_like {r : Rdr} {g G : ReadSegment} (h : withoutEncodings g = withoutEncodings G) (fuel : Nat) :
    watch r fuel g = watch r fuel G := by
  have hc : G.clusters = g.clusters := (congrArg ReadSegment.clusters h).symm
  unfold watch
  rw [show g.getFirst = G.getFirst by simp only [ReadSegment.getFirst, hc]]
  exact watchClusters_like hc fuel fuel _

theorem _root_.Verif.Spec.SameAnswer.okay {α : Type} {x : Res α} {a : α} (h : SameAnswer x (.ok a)) : x = .ok a := by
  rcases h with rfl | ⟨c, d, -, e⟩
  · rfl
  · cases e

theorem watched_streamed {file : Bytes} (h4 : file.take 4 = [0x1A, 0x45, 0xDF, 0xA3]) {h : Shown} {fs : List SeenFrame}
    (hw : WatchedAs file h fs) : StreamedAs file h fs := by
  intro fuel hf ns0 ns1 hns
  have ht : (file.length : Int) < 0 ∨ (file.length : Int) ≤ (file.length : Int) := .inr (Int.le_refl _)
  have hl : 4 ≤ file.length := by
    have := congrArg List.length h4
    simp only [List.length_take, List.length_cons, List.length_nil] at this
    omega
  have hb : file[0]? = some 0x1A := by
    have := congrArg (·[0]?) h4
    simpa [List.getElem?_take] using this
  have ho := whole_opened file
  obtain ⟨pos, head, g, g', w1, w2, w3, w4, w5, w6, w7, w8, w9⟩ := hw _ ho.data ho.total fuel hf
  obtain ⟨k, k1, k2⟩ := load_atOnce w4
  have c0 := headPatiently_same ht hb hl ns0 hns
  rw [w1] at c0
  have c1 := createdPatiently_same ht pos ns1
  rw [w3] at c1
  refine ⟨pos, head, g, k, c0.okay, w2, c1.okay, fun ns2 nss hk => ?_⟩
  have hm : ((ApiCall.headers, ns2) :: nss.map fun ns => (ApiCall.loadCluster, ns)).map (·.1)
      = .headers :: List.replicate k .loadCluster := by
    simp only [List.map_cons, List.map_map, ← hk]
    congr 1
    exact List.map_const'
  have hs := streamed_fits ht fuel ((.headers, ns2) :: nss.map fun ns => (.loadCluster, ns)) (Alike.refl g)
    (fun x hx => by
      rcases List.mem_cons.mp hx with rfl | hx
      · rfl
      · obtain ⟨ns, -, rfl⟩ := List.mem_map.mp hx
        rfl)
    (by rw [hm]; exact fun x hx e => (by rw [k2 x hx] at e; cases e))
  rw [hm, k1] at hs
  obtain ⟨s1, s2⟩ := hs
  refine ⟨fun x hx => ?_, ?_, ?_, ?_, ?_, ?_⟩
  · obtain ⟨y, hy, hxy⟩ := sameAnswers_mem s2 x hx
    rw [k2 y hy] at hxy
    exact hxy.okay
  · exact (congrArg ReadSegment.info s1).trans w5
  · refine (congrArg ReadSegment.tracks s1).trans ?_
    simp only [withoutEncodings, w6]
    rfl
  · exact (congrArg ReadSegment.chapters s1).trans w7
  · exact (congrArg ReadSegment.tags s1).trans w8
  · rw [watch_like s1]
    exact w9

end Verif.Par

/-
The level statistics as functions of the frames seen so far.
-/
import Verif.Spec.Vp9Level

namespace Verif.Vp9
open Verif Spec.Vp9Level

theorem moments_snoc (fs : List LevelFrame) (f : LevelFrame) :
    moments (fs ++ [f]) = moments fs ++ [fs ++ [f]] := by
  unfold moments
  rw [List.length_append, List.length_singleton, List.range_succ, List.map_append]
  congr 1
  · apply List.map_congr_left
    intro i hi
    rw [List.take_append_of_le_length (by have := List.mem_range.mp hi; omega)]
  · simp [List.take_of_length_le]

theorem isMax_snoc {m v : Int} {vs : List Int} (h : IsMax m vs) (hv : 0 ≤ v) :
    IsMax (if v > m then v else m) (vs ++ [v]) := by
  obtain ⟨h1, h2⟩ := h
  constructor
  · intro w hw
    rcases List.mem_append.mp hw with hw | hw
    · have := h1 w hw; split <;> omega
    · rw [List.mem_singleton.mp hw]; split <;> omega
  · left
    split
    · simp
    · rcases h2 with h2 | ⟨-, h2⟩
      · exact List.mem_append_left _ h2
      · have : v = m := by omega
        simp [this]

theorem isMax_nil : IsMax 0 [] := ⟨fun _ h => (nomatch h), Or.inr ⟨rfl, rfl⟩⟩

/-- Dropping from the front of a sorted window is filtering. -/
theorem dropLuma_sorted (now : Int) (w : List LevelFrame) :
    ∀ cur : Int, w.Pairwise (fun a b => a.time ≤ b.time) → cur = (w.map luma).sum →
    dropLuma now (w.map fun f => (f.time, f.width * f.height)) cur =
      ((w.filter fun f => now - 1000000000 < f.time).map fun f => (f.time, f.width * f.height),
       ((w.filter fun f => now - 1000000000 < f.time).map luma).sum) := by
  induction w with
  | nil => intro cur _ h; simp [dropLuma, h]
  | cons f w ih =>
    intro cur hp hc
    rw [List.pairwise_cons] at hp
    rw [List.map_cons, dropLuma]
    by_cases h : f.time < now - (1000000000 - 1)
    · rw [if_pos h, ih _ hp.2 (by rw [hc]; simp [luma]; omega)]
      rw [List.filter_cons_of_neg (by simp; omega)]
    · rw [if_neg h]
      rw [List.filter_cons_of_pos (by simp; omega)]
      have : w.filter (fun f => now - 1000000000 < f.time) = w := by
        rw [List.filter_eq_self]
        intro g hg
        have := hp.1 g hg
        simp; omega
      rw [this, hc]
      rfl

theorem filter_later {a b : Int} (h : a ≤ b) (fs : List LevelFrame) :
    (fs.filter fun f => a - 1000000000 < f.time).filter (fun f => b - 1000000000 < f.time) =
      fs.filter fun f => b - 1000000000 < f.time := by
  rw [List.filter_filter]
  apply List.filter_congr
  intro f _
  simp; omega

/-- The frames in the window after `fs`. -/
def windowOf (fs : List LevelFrame) : List LevelFrame :=
  match fs.getLast? with
  | none => []
  | some l => fs.filter fun f => l.time - 1000000000 < f.time

theorem lastSecond_eq (fs : List LevelFrame) : lastSecond fs = ((windowOf fs).map luma).sum := by
  unfold lastSecond windowOf
  cases fs.getLast? <;> rfl

theorem windowOf_snoc (fs : List LevelFrame) (f : LevelFrame)
    (hp : (fs ++ [f]).Pairwise (fun a b => a.time ≤ b.time)) :
    windowOf (fs ++ [f]) =
      ((windowOf fs).filter fun g => f.time - 1000000000 < g.time) ++ [f] := by
  have h1 : windowOf (fs ++ [f]) = (fs ++ [f]).filter fun g => f.time - 1000000000 < g.time := by
    unfold windowOf; simp
  rw [h1, List.filter_append]
  congr 1
  · unfold windowOf
    cases h : fs.getLast? with
    | none => rw [List.getLast?_eq_none_iff] at h; simp [h]
    | some l =>
      rw [filter_later]
      have hl : l ∈ fs := List.mem_of_getLast? h
      exact (List.pairwise_append.mp hp).2.2 l hl f (by simp)
  · rw [List.filter_cons_of_pos (by simp; omega)]; rfl

theorem sum_nonneg (l : List LevelFrame) (g : LevelFrame → Int) (h : ∀ f, 0 ≤ g f) :
    0 ≤ (l.map g).sum := by
  induction l with
  | nil => simp
  | cons a l ih => simp only [List.map_cons, List.sum_cons]; have := h a; omega

theorem dropCpb_le (w : List Nat) : ∀ cur : Int, w.length ≤ 4 →
    dropCpb w cur = (w.drop (w.length - 3), cur - ((w.take (w.length - 3)).map Int.ofNat).sum) := by
  intro cur h
  match w, h with
  | [], _ => simp [dropCpb]
  | [_], _ => simp [dropCpb]
  | [_, _], _ => simp [dropCpb]
  | [_, _, _], _ => simp [dropCpb]
  | [_, _, _, _], _ => simp [dropCpb]

/-- The luma invariant. -/
structure LumaInv (s : Stats) (fs : List LevelFrame) : Prop where
  window : s.lumaWindow = (windowOf fs).map fun f => (f.time, f.width * f.height)
  current : s.currentLuma = lastSecond fs
  largest : IsMax s.maxLuma ((moments fs).map lastSecond)

theorem lumaInv_snoc {s : Stats} {fs : List LevelFrame} {f : LevelFrame} (h : LumaInv s fs)
    (hp : (fs ++ [f]).Pairwise (fun a b => a.time ≤ b.time)) :
    LumaInv (s.addWindows f) (fs ++ [f]) := by
  have hwp : (windowOf fs).Pairwise (fun a b => a.time ≤ b.time) := by
    have := (List.pairwise_append.mp hp).1
    unfold windowOf
    cases fs.getLast? with
    | none => exact List.Pairwise.nil
    | some l => exact this.filter _
  have hd := dropLuma_sorted f.time (windowOf fs) s.currentLuma hwp
    (by rw [h.current, lastSecond_eq])
  rw [← h.window] at hd
  have hw := windowOf_snoc fs f hp
  have hs : lastSecond (fs ++ [f]) =
      (((windowOf fs).filter fun g => f.time - 1000000000 < g.time).map luma).sum +
        ((f.width * f.height : Nat) : Int) := by
    rw [lastSecond_eq, hw]; simp [luma]
  refine ⟨?_, ?_, ?_⟩
  · unfold Stats.addWindows; simp only [hd, hw, List.map_append]; rfl
  · unfold Stats.addWindows; simp only [hd]; rw [hs]
  · rw [moments_snoc, List.map_append, List.map_singleton]
    have := isMax_snoc h.largest (v := lastSecond (fs ++ [f]))
      (by rw [lastSecond_eq]; exact sum_nonneg _ _ (fun f => by unfold luma; omega))
    unfold Stats.addWindows; simp only [hd]; rw [← hs]; exact this

/-- The frames whose sizes are in the CPB window. -/
structure CpbInv (s : Stats) (fs : List LevelFrame) : Prop where
  window : s.cpbWindow = (fs.reverse.take 4).reverse.map LevelFrame.bytes
  current : s.currentCpb = lastFour fs
  largest : IsMax s.maxCpb ((moments fs).map lastFour)

theorem cpb_shape (fs : List LevelFrame) (f : LevelFrame) :
    ((fs ++ [f]).reverse.take 4).reverse.map LevelFrame.bytes =
      ((fs.reverse.take 4).reverse.map LevelFrame.bytes).drop
        (((fs.reverse.take 4).reverse.map LevelFrame.bytes).length - 3) ++ [f.bytes] := by
  rw [List.reverse_append]
  generalize fs.reverse = r
  match r with
  | [] => rfl
  | [_] => rfl
  | [_, _] => rfl
  | [_, _, _] => rfl
  | _ :: _ :: _ :: _ :: _ => simp

theorem cpb_sum (fs : List LevelFrame) (f : LevelFrame) :
    lastFour (fs ++ [f]) =
      lastFour fs - (((((fs.reverse.take 4).reverse.map LevelFrame.bytes).take
        (((fs.reverse.take 4).reverse.map LevelFrame.bytes).length - 3)).map Int.ofNat).sum) +
        (f.bytes : Int) := by
  unfold lastFour
  rw [List.reverse_append]
  generalize fs.reverse = r
  match r with
  | [] => simp
  | [_] => simp; omega
  | [_, _] => simp; omega
  | [_, _, _] => simp; omega
  | _ :: _ :: _ :: _ :: _ => simp; omega

theorem cpbInv_snoc {s : Stats} {fs : List LevelFrame} (f : LevelFrame) (h : CpbInv s fs) :
    CpbInv (s.addWindows f) (fs ++ [f]) := by
  have hd := dropCpb_le ((fs.reverse.take 4).reverse.map LevelFrame.bytes) s.currentCpb
    (by simp; omega)
  rw [← h.window] at hd
  have hsum := cpb_sum fs f
  have hshape := cpb_shape fs f
  rw [← h.window] at hsum hshape
  rw [← h.current] at hsum
  refine ⟨?_, ?_, ?_⟩
  · unfold Stats.addWindows; simp only [hd]; rw [hshape]
  · unfold Stats.addWindows; simp only [hd]; rw [hsum]
  · rw [moments_snoc, List.map_append, List.map_singleton]
    have := isMax_snoc h.largest (v := lastFour (fs ++ [f]))
      (by unfold lastFour; exact sum_nonneg _ _ (fun f => by omega))
    unfold Stats.addWindows; simp only [hd]; rw [← hsum]; exact this

theorem cast_if (a b : Nat) :
    ((if a > b then a else b : Nat) : Int) = if (a : Int) > b then (a : Int) else b := by
  by_cases h : a > b
  · rw [if_pos h, if_pos (by omega)]
  · rw [if_neg h, if_neg (by omega)]

theorem ite_eq_max (a b : Nat) : (if a > b then a else b) = max a b := by
  split <;> omega

/-- The remaining figures of the first part. -/
structure SizeInv (s : Stats) (fs : List LevelFrame) : Prop where
  frames : s.frames = fs.length
  picture : IsMax s.maxPicture (fs.map luma)
  breadth : IsMax s.maxBreadth (fs.map breadth)
  total : s.totalCompressed = (fs.map LevelFrame.bytes).sum

theorem sizeInv_snoc {s : Stats} {fs : List LevelFrame} (f : LevelFrame) (h : SizeInv s fs) :
    SizeInv (s.addWindows f) (fs ++ [f]) := by
  refine ⟨?_, ?_, ?_, ?_⟩
  · simp [Stats.addWindows, h.frames]
  · rw [List.map_append, List.map_singleton]
    have := isMax_snoc h.picture (v := luma f) (by unfold luma; omega)
    have e : ((s.addWindows f).maxPicture : Int) =
        if luma f > s.maxPicture then luma f else s.maxPicture := by
      exact cast_if _ _
    rw [e]; exact this
  · rw [List.map_append, List.map_singleton]
    have := isMax_snoc h.breadth (v := Spec.Vp9Level.breadth f) (by unfold Spec.Vp9Level.breadth; omega)
    have e : ((s.addWindows f).maxBreadth : Int) =
        if Spec.Vp9Level.breadth f > s.maxBreadth then Spec.Vp9Level.breadth f
        else s.maxBreadth := by
      simp only [Stats.addWindows, Spec.Vp9Level.breadth, ite_eq_max f.width f.height]
      exact cast_if _ _
    rw [e]; exact this
  · simp [Stats.addWindows, h.total]

/-! ### Alternate reference frames -/

theorem altrefGap_snoc (fs : List LevelFrame) (f : LevelFrame) (n : Nat) :
    AltrefGap (fs ++ [f]) n ↔ AltrefGap fs n ∨
      (f.altref = true ∧ ∃ pre a mid, fs = pre ++ a :: mid ∧ a.altref = true ∧
        (∀ g ∈ mid, g.altref = false) ∧ mid.length = n) := by
  constructor
  · rintro ⟨pre, a, mid, b, post, e, ha, hb, hm, hn⟩
    rcases List.eq_nil_or_concat post with rfl | ⟨post', l, rfl⟩
    · right
      have : fs ++ [f] = (pre ++ a :: mid) ++ [b] := e
      obtain ⟨e1, e2⟩ := List.append_inj' this rfl
      obtain rfl := List.singleton_inj.mp e2
      exact ⟨hb, pre, a, mid, e1, ha, hm, hn⟩
    · left
      have : fs ++ [f] = (pre ++ a :: mid ++ b :: post') ++ [l] := by rw [e]; simp
      obtain ⟨e1, -⟩ := List.append_inj' this rfl
      exact ⟨pre, a, mid, b, post', e1, ha, hb, hm, hn⟩
  · rintro (⟨pre, a, mid, b, post, e, ha, hb, hm, hn⟩ | ⟨hf, pre, a, mid, e, ha, hm, hn⟩)
    · exact ⟨pre, a, mid, b, post ++ [f], by rw [e]; simp, ha, hb, hm, hn⟩
    · exact ⟨pre, a, mid, f, [], by rw [e], ha, hf, hm, hn⟩

/-- The alternate reference part of the state. -/
structure AltInv (s : Stats) (fs : List LevelFrame) : Prop where
  first : s.firstAltref = true → ∀ f ∈ fs, f.altref = false
  since : s.firstAltref = false → ∃ pre a mid, fs = pre ++ a :: mid ∧ a.altref = true ∧
    (∀ g ∈ mid, g.altref = false) ∧ mid.length = s.sinceAltref
  least : match s.minAltref with
    | none => ∀ n, ¬ AltrefGap fs n
    | some m => AltrefGap fs m ∧ ∀ n, AltrefGap fs n → m ≤ n
  displayed : s.displayed = (fs.filter fun f => !f.altref).length
  bits : s.totalUncompressed =
    ((fs.filter fun f => !f.altref).map fun f => f.width * f.height * f.bitDepth * 3 / 2).sum

/-- Where the last alternate reference frame is, is unique. -/
theorem last_altref_unique {pre pre' mid mid' : List LevelFrame} {a a' : LevelFrame}
    (e : pre ++ a :: mid = pre' ++ a' :: mid') (ha : a.altref = true) (ha' : a'.altref = true)
    (hm : ∀ g ∈ mid, g.altref = false) (hm' : ∀ g ∈ mid', g.altref = false) :
    mid.length = mid'.length := by
  have key : ∀ (pre : List LevelFrame) (a : LevelFrame) (mid : List LevelFrame),
      a.altref = true → (∀ g ∈ mid, g.altref = false) →
      ((pre ++ a :: mid).reverse.takeWhile fun f => !f.altref).length = mid.length := by
    intro pre a mid ha hm
    rw [List.reverse_append, List.reverse_cons, List.append_assoc, List.takeWhile_append_of_pos]
    · simp [ha]
    · intro g hg; rw [hm g (List.mem_reverse.mp hg)]; rfl
  rw [← key pre a mid ha hm, e, key pre' a' mid' ha' hm']

theorem altInv_snoc {s : Stats} {fs : List LevelFrame} (f : LevelFrame) (h : AltInv s fs) :
    AltInv (s.addAltref f) (fs ++ [f]) := by
  unfold Stats.addAltref
  by_cases ha : f.altref = true
  · rw [if_pos ha]
    have hd : (fs ++ [f]).filter (fun f => !f.altref) = fs.filter fun f => !f.altref := by
      rw [List.filter_append]; simp [ha]
    by_cases hf : s.firstAltref = true
    · rw [if_pos hf]
      have hnone := h.first hf
      have nogap : ∀ n, ¬ AltrefGap (fs ++ [f]) n := by
        intro n hg
        rcases (altrefGap_snoc _ _ _).mp hg with ⟨pre, a, mid, b, post, e, h1, -⟩ |
          ⟨-, pre, a, mid, e, h1, -⟩
        · rw [hnone a (by rw [e]; simp)] at h1; contradiction
        · rw [hnone a (by rw [e]; simp)] at h1; contradiction
      refine ⟨fun h => (nomatch h), fun _ => ⟨fs, f, [], rfl, ha, fun _ h => (nomatch h), rfl⟩,
        ?_, by rw [hd]; exact h.displayed, by rw [hd]; exact h.bits⟩
      have hl := h.least
      cases hm : s.minAltref with
      | none => exact nogap
      | some m =>
        rw [hm] at hl
        exact absurd ((altrefGap_snoc _ _ _).mpr (Or.inl hl.1)) (nogap m)
    · rw [if_neg hf]
      have hff : s.firstAltref = false := by simpa using hf
      obtain ⟨pre, a, mid, e, h1, h2, h3⟩ := h.since hff
      refine ⟨fun h => by rw [hff] at h; contradiction,
        fun _ => ⟨fs, f, [], rfl, ha, fun _ h => (nomatch h), rfl⟩, ?_,
        by rw [hd]; exact h.displayed, by rw [hd]; exact h.bits⟩
      have hl := h.least
      have hnew : AltrefGap (fs ++ [f]) s.sinceAltref :=
        (altrefGap_snoc _ _ _).mpr (Or.inr ⟨ha, pre, a, mid, e, h1, h2, h3⟩)
      have hany : ∀ n, AltrefGap (fs ++ [f]) n → AltrefGap fs n ∨ n = s.sinceAltref := by
        intro n hg
        rcases (altrefGap_snoc _ _ _).mp hg with hg | ⟨-, pre', a', mid', e', k1, k2, k3⟩
        · exact Or.inl hg
        · right
          rw [← k3, ← h3]
          exact last_altref_unique (by rw [← e', e]) k1 h1 k2 h2
      cases hm : s.minAltref with
      | none =>
        rw [hm] at hl
        simp only
        refine ⟨hnew, fun n hn => ?_⟩
        rcases hany n hn with hg | hg
        · exact absurd hg (hl n)
        · omega
      | some m =>
        rw [hm] at hl
        obtain ⟨hl1, hl2⟩ := hl
        simp only
        by_cases hlt : s.sinceAltref < m
        · rw [if_pos hlt]
          refine ⟨hnew, fun n hn => ?_⟩
          rcases hany n hn with hg | hg
          · have := hl2 n hg; omega
          · omega
        · rw [if_neg hlt]
          refine ⟨(altrefGap_snoc _ _ _).mpr (Or.inl hl1), fun n hn => ?_⟩
          rcases hany n hn with hg | hg
          · exact hl2 n hg
          · omega
  · have haf : f.altref = false := by simpa using ha
    rw [if_neg ha]
    have hd : (fs ++ [f]).filter (fun f => !f.altref) = (fs.filter fun f => !f.altref) ++ [f] := by
      rw [List.filter_append]; simp [haf]
    have hgap : ∀ n, AltrefGap (fs ++ [f]) n ↔ AltrefGap fs n := by
      intro n; rw [altrefGap_snoc]; simp [haf]
    refine ⟨?_, ?_, ?_, ?_, ?_⟩
    · intro hf g hg
      rcases List.mem_append.mp hg with hg | hg
      · exact h.first hf g hg
      · rw [List.mem_singleton.mp hg]; exact haf
    · intro hf
      obtain ⟨pre, a, mid, e, h1, h2, h3⟩ := h.since hf
      refine ⟨pre, a, mid ++ [f], by rw [e]; simp, h1, ?_, by simp [h3]⟩
      intro g hg
      rcases List.mem_append.mp hg with hg | hg
      · exact h2 g hg
      · rw [List.mem_singleton.mp hg]; exact haf
    · have hl := h.least
      simp only
      cases hm : s.minAltref with
      | none => rw [hm] at hl; intro n hn; exact hl n ((hgap n).mp hn)
      | some m =>
        rw [hm] at hl
        exact ⟨(hgap m).mpr hl.1, fun n hn => hl.2 n ((hgap n).mp hn)⟩
    · rw [hd]; simp [h.displayed]
    · rw [hd]; simp [h.bits]

/-! ### References -/

theorem countBits_eq (v : Nat) (n : Nat) :
    countBits v n = (List.range n).countP fun k => v.testBit k := by
  induction n with
  | zero => rfl
  | succ n ih =>
    rw [countBits, ih, List.range_succ, List.countP_append]
    congr 1
    rw [List.countP_singleton, Nat.testBit, Nat.and_comm]
    rw [Nat.one_and_eq_mod_two]
    rcases Nat.mod_two_eq_zero_or_one (v >>> n) with h | h <;> simp [h]

/-- References and tiles. -/
structure RefInv (s : Stats) (fs : List LevelFrame) : Prop where
  refreshed : ∀ k, s.refreshed.testBit k =
    (fs.reverse.takeWhile fun f => !f.key).any fun f => f.refresh.testBit k
  largest : IsMax s.maxRefreshed ((moments fs).map slotsUsed)
  tiles : IsMax s.maxTiles (fs.map fun f => (f.columnTiles : Int))

theorem slotsUsed_eq {s : Stats} {fs : List LevelFrame}
    (h : ∀ k, s.refreshed.testBit k =
      (fs.reverse.takeWhile fun f => !f.key).any fun f => f.refresh.testBit k) :
    slotsUsed fs = (countBits s.refreshed 8 : Nat) := by
  unfold slotsUsed
  rw [countBits_eq]
  congr 2
  funext k
  exact (h k).symm

theorem refInv_snoc {s : Stats} {fs : List LevelFrame} (f : LevelFrame) (h : RefInv s fs) :
    RefInv (s.addRefs f) (fs ++ [f]) := by
  have tiles : IsMax (if f.columnTiles > s.maxTiles then f.columnTiles else s.maxTiles : Nat)
      ((fs ++ [f]).map fun f => (f.columnTiles : Int)) := by
    rw [List.map_append, List.map_singleton]
    have := isMax_snoc h.tiles (v := (f.columnTiles : Int)) (by omega)
    have e : ((if f.columnTiles > s.maxTiles then f.columnTiles else s.maxTiles : Nat) : Int) =
        if (f.columnTiles : Int) > s.maxTiles then (f.columnTiles : Int) else s.maxTiles := by
      exact cast_if _ _
    rw [e]; exact this
  by_cases hk : f.key = true
  · have hs : s.addRefs f = { s with
        refreshed := 0
        maxTiles := if f.columnTiles > s.maxTiles then f.columnTiles else s.maxTiles } := by
      unfold Stats.addRefs; rw [if_pos hk]
    have ht : (fs ++ [f]).reverse.takeWhile (fun f => !f.key) = [] := by simp [hk]
    rw [hs]
    refine ⟨fun k => by rw [ht]; simp, ?_, tiles⟩
    rw [moments_snoc, List.map_append, List.map_singleton]
    have hz : slotsUsed (fs ++ [f]) = 0 := by
      unfold slotsUsed; rw [ht]; rfl
    have := isMax_snoc h.largest (v := slotsUsed (fs ++ [f])) (by omega)
    rw [if_neg (by rw [hz]; simp)] at this
    exact this
  · have hs : s.addRefs f = { s with
        refreshed := s.refreshed ||| f.refresh
        maxRefreshed := if countBits (s.refreshed ||| f.refresh) 8 > s.maxRefreshed
          then countBits (s.refreshed ||| f.refresh) 8 else s.maxRefreshed
        maxTiles := if f.columnTiles > s.maxTiles then f.columnTiles else s.maxTiles } := by
      unfold Stats.addRefs; rw [if_neg hk]
    have hkf : f.key = false := by simpa using hk
    have ht : (fs ++ [f]).reverse.takeWhile (fun f => !f.key) =
        f :: fs.reverse.takeWhile (fun f => !f.key) := by simp [hkf]
    have hr : ∀ k, (s.addRefs f).refreshed.testBit k =
        ((fs ++ [f]).reverse.takeWhile fun f => !f.key).any fun f => f.refresh.testBit k := by
      intro k
      rw [ht, hs, List.any_cons, ← h.refreshed k]
      simp only [Nat.testBit_or]
      exact Bool.or_comm _ _
    refine ⟨hr, ?_, by rw [hs]; exact tiles⟩
    rw [moments_snoc, List.map_append, List.map_singleton]
    have hu := slotsUsed_eq hr
    have := isMax_snoc h.largest (v := slotsUsed (fs ++ [f])) (by omega)
    rw [hu] at this ⊢
    have e : ((s.addRefs f).maxRefreshed : Int) =
        if ((countBits (s.addRefs f).refreshed 8 : Nat) : Int) > s.maxRefreshed
        then ((countBits (s.addRefs f).refreshed 8 : Nat) : Int) else s.maxRefreshed := by
      rw [hs]; simp only
      exact cast_if _ _
    rw [e]; exact this

/-! ### All frames -/

theorem addAll_snoc (s : Stats) (fs : List LevelFrame) (f : LevelFrame) :
    s.addAll (fs ++ [f]) = (s.addAll fs).bind fun t => t.add f := by
  induction fs generalizing s with
  | nil =>
    simp only [List.nil_append, Stats.addAll, Res.bind]
    cases s.add f <;> rfl
  | cons g fs ih =>
    simp only [List.cons_append, Stats.addAll]
    cases s.add g with
    | ok t => exact ih t
    | err c => rfl
    | ub => rfl

theorem luma_congr {s t : Stats} {fs : List LevelFrame} (h : LumaInv s fs)
    (h1 : t.lumaWindow = s.lumaWindow) (h2 : t.currentLuma = s.currentLuma)
    (h3 : t.maxLuma = s.maxLuma) : LumaInv t fs :=
  ⟨h1 ▸ h.window, h2 ▸ h.current, h3 ▸ h.largest⟩

theorem cpb_congr {s t : Stats} {fs : List LevelFrame} (h : CpbInv s fs)
    (h1 : t.cpbWindow = s.cpbWindow) (h2 : t.currentCpb = s.currentCpb)
    (h3 : t.maxCpb = s.maxCpb) : CpbInv t fs :=
  ⟨h1 ▸ h.window, h2 ▸ h.current, h3 ▸ h.largest⟩

theorem size_congr {s t : Stats} {fs : List LevelFrame} (h : SizeInv s fs)
    (h1 : t.frames = s.frames) (h2 : t.maxPicture = s.maxPicture)
    (h3 : t.maxBreadth = s.maxBreadth) (h4 : t.totalCompressed = s.totalCompressed) :
    SizeInv t fs :=
  ⟨h1 ▸ h.frames, h2 ▸ h.picture, h3 ▸ h.breadth, h4 ▸ h.total⟩

theorem alt_congr {s t : Stats} {fs : List LevelFrame} (h : AltInv s fs)
    (h1 : t.firstAltref = s.firstAltref) (h2 : t.sinceAltref = s.sinceAltref)
    (h3 : t.minAltref = s.minAltref) (h4 : t.displayed = s.displayed)
    (h5 : t.totalUncompressed = s.totalUncompressed) : AltInv t fs :=
  ⟨h1 ▸ h.first, h1 ▸ h2 ▸ h.since, h3 ▸ h.least, h4 ▸ h.displayed, h5 ▸ h.bits⟩

theorem ref_congr {s t : Stats} {fs : List LevelFrame} (h : RefInv s fs)
    (h1 : t.refreshed = s.refreshed) (h2 : t.maxRefreshed = s.maxRefreshed)
    (h3 : t.maxTiles = s.maxTiles) : RefInv t fs :=
  ⟨h1 ▸ h.refreshed, h2 ▸ h.largest, h3 ▸ h.tiles⟩

theorem addAltref_keeps (s : Stats) (f : LevelFrame) :
    (s.addAltref f).lumaWindow = s.lumaWindow ∧ (s.addAltref f).currentLuma = s.currentLuma ∧
    (s.addAltref f).maxLuma = s.maxLuma ∧ (s.addAltref f).cpbWindow = s.cpbWindow ∧
    (s.addAltref f).currentCpb = s.currentCpb ∧ (s.addAltref f).maxCpb = s.maxCpb ∧
    (s.addAltref f).frames = s.frames ∧ (s.addAltref f).maxPicture = s.maxPicture ∧
    (s.addAltref f).maxBreadth = s.maxBreadth ∧
    (s.addAltref f).totalCompressed = s.totalCompressed ∧
    (s.addAltref f).refreshed = s.refreshed ∧ (s.addAltref f).maxRefreshed = s.maxRefreshed ∧
    (s.addAltref f).maxTiles = s.maxTiles ∧ (s.addAltref f).finish = s.finish ∧
    (s.addAltref f).start = s.start := by
  unfold Stats.addAltref
  by_cases h1 : f.altref = true
  · rw [if_pos h1]
    by_cases h2 : s.firstAltref = true
    · rw [if_pos h2]; exact ⟨rfl, rfl, rfl, rfl, rfl, rfl, rfl, rfl, rfl, rfl, rfl, rfl, rfl, rfl, rfl⟩
    · rw [if_neg h2]; exact ⟨rfl, rfl, rfl, rfl, rfl, rfl, rfl, rfl, rfl, rfl, rfl, rfl, rfl, rfl, rfl⟩
  · rw [if_neg h1]; exact ⟨rfl, rfl, rfl, rfl, rfl, rfl, rfl, rfl, rfl, rfl, rfl, rfl, rfl, rfl, rfl⟩

theorem addRefs_keeps (s : Stats) (f : LevelFrame) :
    (s.addRefs f).lumaWindow = s.lumaWindow ∧ (s.addRefs f).currentLuma = s.currentLuma ∧
    (s.addRefs f).maxLuma = s.maxLuma ∧ (s.addRefs f).cpbWindow = s.cpbWindow ∧
    (s.addRefs f).currentCpb = s.currentCpb ∧ (s.addRefs f).maxCpb = s.maxCpb ∧
    (s.addRefs f).frames = s.frames ∧ (s.addRefs f).maxPicture = s.maxPicture ∧
    (s.addRefs f).maxBreadth = s.maxBreadth ∧
    (s.addRefs f).totalCompressed = s.totalCompressed ∧
    (s.addRefs f).firstAltref = s.firstAltref ∧ (s.addRefs f).sinceAltref = s.sinceAltref ∧
    (s.addRefs f).minAltref = s.minAltref ∧ (s.addRefs f).displayed = s.displayed ∧
    (s.addRefs f).totalUncompressed = s.totalUncompressed ∧ (s.addRefs f).finish = s.finish ∧
    (s.addRefs f).start = s.start := by
  unfold Stats.addRefs
  by_cases h1 : f.key = true
  · rw [if_pos h1]
    exact ⟨rfl, rfl, rfl, rfl, rfl, rfl, rfl, rfl, rfl, rfl, rfl, rfl, rfl, rfl, rfl, rfl, rfl⟩
  · rw [if_neg h1]
    exact ⟨rfl, rfl, rfl, rfl, rfl, rfl, rfl, rfl, rfl, rfl, rfl, rfl, rfl, rfl, rfl, rfl, rfl⟩

/-- Everything but the luma window, which needs times in order. -/
structure AllInv (s : Stats) (fs : List LevelFrame) : Prop where
  cpb : CpbInv s fs
  size : SizeInv s fs
  alt : AltInv s fs
  ref : RefInv s fs

theorem allInv_step {s : Stats} {fs : List LevelFrame} (f : LevelFrame) (h : AllInv s fs) :
    AllInv (((s.addWindows f).addAltref f).addRefs f) (fs ++ [f]) := by
  obtain ⟨a1, a2, a3, a4, a5, a6, a7, a8, a9, a10, a11, a12, a13, -, -⟩ :=
    addAltref_keeps (s.addWindows f) f
  obtain ⟨b1, b2, b3, b4, b5, b6, b7, b8, b9, b10, b11, b12, b13, b14, b15, -, -⟩ :=
    addRefs_keeps ((s.addWindows f).addAltref f) f
  refine ⟨?_, ?_, ?_, ?_⟩
  · exact cpb_congr (cpbInv_snoc f h.cpb) (b4.trans a4) (b5.trans a5) (b6.trans a6)
  · exact size_congr (sizeInv_snoc f h.size) (b7.trans a7) (b8.trans a8) (b9.trans a9)
      (b10.trans a10)
  · exact alt_congr (altInv_snoc f (alt_congr (t := s.addWindows f) h.alt rfl rfl rfl rfl rfl))
      b11 b12 b13 b14 b15
  · exact refInv_snoc f (ref_congr (t := (s.addWindows f).addAltref f) h.ref a11 a12 a13)

theorem lumaInv_step {s : Stats} {fs : List LevelFrame} (f : LevelFrame) (h : LumaInv s fs)
    (hp : (fs ++ [f]).Pairwise (fun a b => a.time ≤ b.time)) :
    LumaInv (((s.addWindows f).addAltref f).addRefs f) (fs ++ [f]) := by
  obtain ⟨a1, a2, a3, -⟩ := addAltref_keeps (s.addWindows f) f
  obtain ⟨b1, b2, b3, -⟩ := addRefs_keeps ((s.addWindows f).addAltref f) f
  exact luma_congr (lumaInv_snoc h hp) (b1.trans a1) (b2.trans a2) (b3.trans a3)

theorem addAll_inv (fs : List LevelFrame) (hsz : ∀ f ∈ fs, f.width * f.height < 2 ^ 31) :
    ∃ s, Stats.addAll {} fs = .ok s ∧ AllInv s fs ∧
      (fs.Pairwise (fun a b => a.time ≤ b.time) → LumaInv s fs) ∧
      ((∀ f ∈ fs, 0 ≤ f.time) →
        s.start = (fs.head?.map LevelFrame.time).getD (-1) ∧
        s.finish = (fs.getLast?.map LevelFrame.time).getD (-1)) := by
  induction h : fs.length generalizing fs with
  | zero =>
    obtain rfl := List.length_eq_zero_iff.mp h
    refine ⟨{}, rfl, ⟨⟨rfl, rfl, isMax_nil⟩, ⟨rfl, isMax_nil, isMax_nil, rfl⟩, ?_,
      ⟨fun k => by simp, isMax_nil, isMax_nil⟩⟩, fun _ => ⟨rfl, rfl, isMax_nil⟩,
      fun _ => ⟨rfl, rfl⟩⟩
    refine ⟨fun _ _ h => (nomatch h), fun h => (nomatch h), ?_, rfl, rfl⟩
    rintro n ⟨pre, a, mid, b, post, e, -⟩
    simp at e
  | succ n ih =>
    rcases List.eq_nil_or_concat fs with rfl | ⟨gs, f, rfl⟩
    · contradiction
    rw [List.concat_eq_append] at h hsz ⊢
    have hlen : gs.length = n := by simpa using h
    obtain ⟨s, e, hi, hl, hse⟩ := ih gs (fun g hg => hsz g (List.mem_append_left _ hg)) hlen
    refine ⟨((s.addWindows f).addAltref f).addRefs f, ?_, allInv_step f hi, ?_, ?_⟩
    · rw [addAll_snoc, e]
      show s.add f = _
      unfold Stats.add
      rw [if_neg (by have := hsz f (by simp); omega)]
    · intro hp
      exact lumaInv_step f (hl (List.pairwise_append.mp hp).1) hp
    · intro ht
      obtain ⟨h1, h2⟩ := hse (fun g hg => ht g (List.mem_append_left _ hg))
      obtain ⟨-, -, -, -, -, -, -, -, -, -, -, -, -, a1, a2⟩ := addAltref_keeps (s.addWindows f) f
      obtain ⟨-, -, -, -, -, -, -, -, -, -, -, -, -, -, -, b1, b2⟩ :=
        addRefs_keeps ((s.addWindows f).addAltref f) f
      rw [b2, a2, b1, a1]
      constructor
      · show (if s.start = -1 then f.time else s.start) = _
        rw [h1]
        cases gs with
        | nil => simp
        | cons g gs =>
          have := ht g (by simp)
          simp; omega
      · simp [Stats.addWindows]

end Verif.Vp9

/-! ### The level decision -/

namespace Verif.Vp9
open Verif Spec.Vp9Level

theorem table_sorted : levelTable.Pairwise (fun a b => a.level < b.level) := by decide +kernel

/-- In a list sorted by level, the first row that satisfies an upward closed criterion. -/
theorem find_first {l : List LevelRow} (hs : l.Pairwise (fun a b => a.level < b.level))
    {p : LevelRow → Bool} (hp : l.Pairwise (fun a b => p a = true → p b = true))
    {f : LevelRow} (hf : l.find? p = some f) :
    ∀ r ∈ l, p r = true ↔ f.level ≤ r.level := by
  induction l with
  | nil => contradiction
  | cons a l ih =>
    rw [List.pairwise_cons] at hs hp
    rw [List.find?_cons] at hf
    by_cases ha : p a = true
    · rw [ha] at hf
      obtain rfl := Option.some.inj hf
      intro r hr
      rcases List.mem_cons.mp hr with rfl | hr
      · simp [ha]
      · exact ⟨fun _ => Nat.le_of_lt (hs.1 r hr), fun _ => hp.1 r hr ha⟩
    · rw [Bool.not_eq_true] at ha
      rw [ha] at hf
      intro r hr
      rcases List.mem_cons.mp hr with rfl | hr
      · rw [ha]
        have hfm : f ∈ l := List.mem_of_find?_eq_some hf
        have := hs.1 f hfm
        simp; omega
      · exact ih hs.2 hp.2 hf r hr

/-- `best` is the lowest row that satisfies the criteria seen so far. -/
def Lowest (P : LevelRow → Prop) (best : Option LevelRow) : Prop :=
  ∃ b ∈ levelTable, best = some b ∧ ∀ r ∈ levelTable, P r ↔ b.level ≤ r.level

theorem lowest_raise {P : LevelRow → Prop} {best : Option LevelRow} {p : LevelRow → Bool}
    (h : Lowest P best) (hp : levelTable.Pairwise (fun a b => p a = true → p b = true))
    (hex : ∃ r ∈ levelTable, p r = true) :
    Lowest (fun r => P r ∧ p r = true) (raise p best) := by
  obtain ⟨b, hb, rfl, hP⟩ := h
  obtain ⟨r0, hr0, hpr0⟩ := hex
  cases hf : levelTable.find? p with
  | none =>
    exact absurd hpr0 (List.find?_eq_none.mp hf r0 hr0)
  | some f =>
    have hfirst := find_first table_sorted hp hf
    have hfm : f ∈ levelTable := List.mem_of_find?_eq_some hf
    unfold raise
    rw [hf]
    simp only
    by_cases hlt : b.level < f.level
    · rw [if_pos hlt]
      refine ⟨f, hfm, rfl, fun r hr => ?_⟩
      show P r ∧ p r = true ↔ _
      rw [hP r hr, hfirst r hr]; omega
    · rw [if_neg hlt]
      refine ⟨b, hb, rfl, fun r hr => ?_⟩
      show P r ∧ p r = true ↔ _
      rw [hP r hr, hfirst r hr]; omega

theorem lowest_first {p : LevelRow → Bool}
    (hp : levelTable.Pairwise (fun a b => p a = true → p b = true))
    (hex : ∃ r ∈ levelTable, p r = true) : Lowest (fun r => p r = true) (raise p none) := by
  obtain ⟨r0, hr0, hpr0⟩ := hex
  cases hf : levelTable.find? p with
  | none => exact absurd hpr0 (List.find?_eq_none.mp hf r0 hr0)
  | some f =>
    unfold raise
    rw [hf]
    exact ⟨f, List.mem_of_find?_eq_some hf, rfl, find_first table_sorted hp hf⟩

theorem lowest_congr {P Q : LevelRow → Prop} {best : Option LevelRow} (h : Lowest P best)
    (hPQ : ∀ r ∈ levelTable, P r ↔ Q r) : Lowest Q best := by
  obtain ⟨b, hb, e, hP⟩ := h
  exact ⟨b, hb, e, fun r hr => (hPQ r hr).symm.trans (hP r hr)⟩

/-- Only defined CPB limits are looked at, which makes no difference if one is kept. -/
theorem cpb_find {ok : Nat → Bool} (hex : ∃ r ∈ levelTable, r.cpb > 0 ∧ ok r.cpb = true) :
    levelTable.find? (fun r => r.cpb > 0 ∧ ok r.cpb) =
      levelTable.find? (fun r => r.cpb = 0 ∨ ok r.cpb) := by
  have hz : levelTable.Pairwise (fun a b => a.cpb = 0 → b.cpb = 0) := by decide +kernel
  revert hex hz
  generalize levelTable = l
  intro hex hz
  induction l with
  | nil => rfl
  | cons a l ih =>
    rw [List.pairwise_cons] at hz
    rw [List.find?_cons, List.find?_cons]
    obtain ⟨r, hr, hr0, hrok⟩ := hex
    have ha : a.cpb > 0 := by
      rcases List.mem_cons.mp hr with rfl | hr
      · exact hr0
      · apply Nat.pos_of_ne_zero; intro h; have := hz.1 r hr h; omega
    by_cases hok : ok a.cpb = true
    · simp [ha, hok]
    · have hok' : ok a.cpb = false := by simpa using hok
      have e1 : decide (a.cpb > 0 ∧ ok a.cpb = true) = false := by simp [hok']
      have e2 : decide (a.cpb = 0 ∨ ok a.cpb = true) = false := by simp [hok']; omega
      rw [e1, e2]
      refine ih ⟨r, ?_, hr0, hrok⟩ hz.2
      rcases List.mem_cons.mp hr with rfl | hr
      · rw [hok'] at hrok; contradiction
      · exact hr

theorem raise_congr {p q : LevelRow → Bool} (h : levelTable.find? p = levelTable.find? q)
    (best : Option LevelRow) : raise p best = raise q best := by
  unfold raise; rw [h]

theorem upward_pairwise {ok : Nat → Bool} (h : Upward ok) {g : LevelRow → Nat}
    (hg : levelTable.Pairwise (fun a b => g a ≤ g b)) :
    levelTable.Pairwise (fun a b => ok (g a) = true → ok (g b) = true) :=
  hg.imp (fun hab => h _ _ hab)

theorem le_pairwise (v : Nat) {g : LevelRow → Nat}
    (hg : levelTable.Pairwise (fun a b => g a ≤ g b)) :
    levelTable.Pairwise (fun a b => decide (v ≤ g a) = true → decide (v ≤ g b) = true) :=
  hg.imp (fun hab h => by simp only [decide_eq_true_eq] at h ⊢; omega)

theorem cpb_pairwise {ok : Nat → Bool} (h : Upward ok) :
    levelTable.Pairwise (fun a b => decide (a.cpb = 0 ∨ ok a.cpb = true) = true →
      decide (b.cpb = 0 ∨ ok b.cpb = true) = true) := by
  have hz : levelTable.Pairwise (fun a b => b.cpb = 0 ∨ (a.cpb ≠ 0 ∧ a.cpb ≤ b.cpb)) := by
    decide +kernel
  refine hz.imp ?_
  intro a b hab ha
  simp only [decide_eq_true_eq] at ha ⊢
  rcases hab with hb | ⟨h0, hle⟩
  · exact Or.inl hb
  · rcases ha with ha | ha
    · exact absurd ha h0
    · exact Or.inr (h _ _ hle ha)

end Verif.Vp9

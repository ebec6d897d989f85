/-
Lemmas for C94: the cue points loaded are the first of the file, and every allocation has one owner.
-/
import Verif.Spec.CuesMem
import Verif.Lemmas.ParserTextMem
import Verif.Lemmas.ParserEncodingMem

namespace Verif.Par.CuesMem
open Verif Verif.Spec Verif.Mux.Build Verif.Par.Enc

def pointA (x : Point) : List Nat := x.arr.toList

def cuesA (x : Cues) : List Nat := x.arr.toList ++ (x.loaded ++ x.pre).flatMap (Enc.itemA pointA)

def isTp : PointPart → Bool
  | .tp _ => true
  | _ => false

theorem lastTime_cons (p : PointPart) (ps : List PointPart) : lastTime (p :: ps) = (lastTime ps).or (lastTime [p]) := by
  unfold lastTime
  rw [← List.singleton_append, List.filterMap_append, List.getLast?_append]

theorem scan_good : ∀ {ps : List PointPart} (t : Int) (n : Nat), PointPart.bad ∉ ps →
    scan ps t n = (true, (lastTime ps).getD t, n + ps.countP isTp)
  | [], t, n, _ => rfl
  | .time s :: ps, t, n, h => by
    rw [scan, scan_good s n (fun hc => h (by simp [hc])), lastTime_cons, List.countP_cons_of_neg (by simp [isTp])]
    cases lastTime ps <;> rfl
  | .tp v :: ps, t, n, h => by
    rw [scan, scan_good t (n + 1) (fun hc => h (by simp [hc])), lastTime_cons, List.countP_cons_of_pos (by rfl)]
    have : n + 1 + ps.countP isTp = n + (ps.countP isTp + 1) := by omega
    rw [this]
    cases lastTime ps <;> rfl
  | .other :: ps, t, n, h => by
    rw [scan, scan_good t n (fun hc => h (by simp [hc])), lastTime_cons, List.countP_cons_of_neg (by simp [isTp])]
    cases lastTime ps <;> rfl
  | .bad :: ps, t, n, h => absurd (by simp) h

theorem scan_bad : ∀ {ps : List PointPart} (t : Int) (n : Nat), PointPart.bad ∈ ps → ∃ t' n', scan ps t n = (false, t', n')
  | [], t, n, h => by cases h
  | .time s :: ps, t, n, h => scan_bad (ps := ps) s n (by simpa using h)
  | .tp v :: ps, t, n, h => scan_bad (ps := ps) t (n + 1) (by simpa using h)
  | .other :: ps, t, n, h => scan_bad (ps := ps) t n (by simpa using h)
  | .bad :: ps, t, n, h => ⟨_, _, rfl⟩

theorem fill_spec {n : Nat} : ∀ {ps : List PointPart} {l : List Pos}, PointPart.bad ∉ ps → l.length + ps.countP isTp ≤ n →
    ∃ b l', fill n ps l = .ok (b, l') ∧ (b = true ↔ PointPart.tp none ∉ ps) ∧
      (b = true → l' = l ++ positionsIn ps ∧ l'.length = l.length + ps.countP isTp)
  | [], l, _, _ => ⟨true, l, rfl, by simp, fun _ => ⟨by simp [positionsIn], by simp⟩⟩
  | .tp v :: ps, l, hb, hn => by
    rw [List.countP_cons_of_pos (by rfl)] at hn ⊢
    unfold fill
    rw [if_neg (by omega)]
    cases v with
    | none => exact ⟨false, l, rfl, by simp, fun h => (by cases h)⟩
    | some v =>
      obtain ⟨b, l', e, h1, h2⟩ := fill_spec (n := n) (ps := ps) (l := l ++ [v]) (fun hc => hb (by simp [hc])) (by simp; omega)
      refine ⟨b, l', e, by rw [h1]; simp, fun h => ?_⟩
      obtain ⟨h3, h4⟩ := h2 h
      refine ⟨?_, by rw [h4]; simp; omega⟩
      rw [h3, List.append_assoc]
      rfl
  | .time t :: ps, l, hb, hn => by
    rw [List.countP_cons_of_neg (by simp [isTp])] at hn ⊢
    obtain ⟨b, l', e, h1, h2⟩ := fill_spec (n := n) (ps := ps) (l := l) (fun hc => hb (by simp [hc])) hn
    exact ⟨b, l', e, by rw [h1]; simp, h2⟩
  | .other :: ps, l, hb, hn => by
    rw [List.countP_cons_of_neg (by simp [isTp])] at hn ⊢
    obtain ⟨b, l', e, h1, h2⟩ := fill_spec (n := n) (ps := ps) (l := l) (fun hc => hb (by simp [hc])) hn
    exact ⟨b, l', e, by rw [h1]; simp, h2⟩
  | .bad :: ps, l, hb, _ => absurd (by simp) hb

theorem positions_length : ∀ {ps : List PointPart}, PointPart.tp none ∉ ps → (positionsIn ps).length = ps.countP isTp
  | [], _ => rfl
  | .tp none :: ps, h => absurd (by simp) h
  | .tp (some v) :: ps, h => by
    rw [List.countP_cons_of_pos (by rfl), ← positions_length (ps := ps) (fun hc => h (by simp [hc]))]
    rfl
  | .time t :: ps, h => by
    rw [List.countP_cons_of_neg (by simp [isTp]), ← positions_length (ps := ps) (fun hc => h (by simp [hc]))]
    rfl
  | .other :: ps, h => by
    rw [List.countP_cons_of_neg (by simp [isTp]), ← positions_length (ps := ps) (fun hc => h (by simp [hc]))]
    rfl
  | .bad :: ps, h => by
    rw [List.countP_cons_of_neg (by simp [isTp]), ← positions_length (ps := ps) (fun hc => h (by simp [hc]))]
    rfl

theorem load_spec {can : Nat → Bool} {ps : List PointPart} {pos : Nat} (hp : pos ≠ 0) {m : Mem} {f : Nat → Nat} (h : Holds m f) :
    ∃ b p m', Point.load can ps { time := -(pos : Int) } m = .ok (b, p, m') ∧ Holds m' (fun a => (pointA p).count a + f a) ∧
      (b = true → p.show = .ok (pointSaid ps) ∧ PointGood ps) ∧ (PointGood ps → Enough can → b = true) := by
  unfold Point.load
  rw [if_neg (by simp only; omega), if_neg (by simp)]
  have h0 : ∀ (m : Mem), Holds m f → ∀ t n, Holds m fun a => (pointA { time := t, count := n }).count a + f a := fun m h t n =>
    h.of fun a => by simp [pointA]
  by_cases hb : PointPart.bad ∈ ps
  · obtain ⟨t, n, e⟩ := scan_bad (-(pos : Int)) 0 hb
    simp only [e]
    exact ⟨false, _, m, rfl, h0 m h _ _, fun h => (by cases h), fun hg => absurd hb hg.1⟩
  · simp only [scan_good (-(pos : Int)) 0 hb, Nat.zero_add]
    have ht : 0 ≤ (pointSaid ps).1 → (pointSaid ps).1 = (lastTime ps).getD (-(pos : Int)) := by
      unfold pointSaid
      cases lastTime ps with
      | none => intro h; simp at h
      | some t => intro _; rfl
    have ht' : 0 ≤ (lastTime ps).getD (-(pos : Int)) → (pointSaid ps).1 = (lastTime ps).getD (-(pos : Int)) := by
      unfold pointSaid
      cases lastTime ps with
      | none => intro h; simp only [Option.getD_none] at h; omega
      | some t => intro _; rfl
    split
    · rename_i hc
      refine ⟨false, _, m, rfl, h0 m h _ _, fun h => (by cases h), fun hg => ?_⟩
      rcases hc with hc | hc
      · have := ht hg.2.2.1
        have := hg.2.2.1
        omega
      · exact absurd (List.length_eq_zero_iff.mp ((positions_length hg.2.1).trans hc)) hg.2.2.2
    · rename_i hc
      cases ea : m.alloc can with
      | mk r m1 =>
        have h1 := alloc_spec h ea
        cases r with
        | none =>
          refine ⟨false, _, m1, rfl, h0 m1 (h1.of fun a => by simp) _ _, fun h => (by cases h), fun _ hen => ?_⟩
          unfold Mem.alloc at ea
          rw [if_pos (hen _)] at ea
          cases ea
        | some a =>
          obtain ⟨b, l, e, hb1, hb2⟩ := fill_spec (n := ps.countP isTp) (ps := ps) (l := []) hb (by simp)
          simp only
          rw [e, Res.bind_ok]
          refine ⟨b, _, m1, rfl, h1, fun hbt => ?_, fun hg _ => hb1.mpr hg.2.1⟩
          obtain ⟨h3, h4⟩ := hb2 hbt
          have hz : ps.countP isTp ≠ 0 := fun hz => hc (Or.inr hz)
          have htime := ht' (by omega)
          refine ⟨?_, hb, hb1.mp hbt, by rw [htime]; omega, fun hnil => ?_⟩
          · unfold Point.show
            simp only [List.length_nil, Nat.zero_add] at h4
            rw [if_neg (by simp [h4])]
            simp only [← h4, List.take_length]
            rw [h3, ← htime]
            rfl
          · have := positions_length (hb1.mp hbt)
            rw [hnil] at this
            exact hz this.symm

/-! ### The table -/

/-- The cue points with their places. -/
def pts (es : List CuesPart) : List (Nat × List PointPart) := es.filterMap fun e => match e with | .point pos ps => some (pos, ps) | _ => none

theorem pts_points (es : List CuesPart) : (pts es).map (·.2) = pointsIn es := by
  unfold pts pointsIn
  rw [List.map_filterMap]
  congr 1
  funext e
  cases e <;> rfl

def fresh (q : Nat × List PointPart) : Point := { time := -(q.1 : Int) }

theorem preload_spec {can : Nat → Bool} {room pos : Nat} {x : Cues} {m : Mem} {f : Nat → Nat} (hp : pos ≠ 0) (hl : x.loaded = [])
    (hr : x.pre.length ≤ room) (ha : room ≠ 0 → x.arr ≠ none) (h : Holds m fun a => (cuesA x).count a + f a) :
    ∃ r x' m', preload can room pos x m = .ok (r, x', m') ∧ Holds m' (fun a => (cuesA x').count a + f a) ∧ x'.loaded = [] ∧ x'.rest = x.rest ∧
      (∀ room', r = some room' → x'.pre.map (·.2) = x.pre.map (·.2) ++ [{ time := -(pos : Int) }] ∧ x'.pre.length ≤ room' ∧ x'.arr ≠ none) ∧
      (Enough can → r ≠ none) := by
  unfold preload
  rw [if_neg (by simp [hl])]
  have hg : ∃ r x' m', grow can room x m = .ok (r, x', m') ∧ Holds m' (fun a => (cuesA x').count a + f a) ∧ x'.loaded = [] ∧
      x'.rest = x.rest ∧ x'.pre = x.pre ∧ (∀ room', r = some room' → x.pre.length < room' ∧ x'.arr ≠ none) ∧ (Enough can → r ≠ none) := by
    unfold grow
    split
    · cases ea : m.alloc can with
      | mk r m1 =>
        have h1 := alloc_spec h ea
        cases r with
        | none =>
          refine ⟨none, x, m1, rfl, h1.of fun a => (by simp), hl, rfl, rfl, fun _ h => (by cases h), fun hen => ?_⟩
          unfold Mem.alloc at ea
          rw [if_pos (hen _)] at ea
          cases ea
        | some b =>
          obtain ⟨m2, e2, h2⟩ := free_spec (p := x.arr) (f := fun a => (cuesA { x with arr := some b }).count a + f a)
            (h1.of fun a => by simp only [cuesA, List.count_append]; omega)
          simp only
          rw [e2, Res.bind_ok]
          refine ⟨_, _, m2, rfl, h2, hl, rfl, rfl, fun room' hr' => ⟨?_, by simp⟩, fun _ => by simp⟩
          cases hr'
          split <;> omega
    · rename_i hc
      exact ⟨some room, x, m, rfl, h, hl, rfl, rfl, fun room' hr' => (by cases hr'; exact ⟨by omega, ha (by omega)⟩), fun _ => by simp⟩
  obtain ⟨r, x1, m1, e1, h1, hl1, hr1, hp1, hroom, hen⟩ := hg
  rw [e1, Res.bind_ok]
  cases r with
  | none => exact ⟨none, x1, m1, rfl, h1, hl1, hr1, fun _ h => (by cases h), hen⟩
  | some room1 =>
    obtain ⟨hlt, har⟩ := hroom room1 rfl
    simp only
    cases ea : m1.alloc can with
    | mk r m2 =>
      have h2 := alloc_spec h1 ea
      cases r with
      | none =>
        refine ⟨none, x1, m2, rfl, h2.of fun a => (by simp), hl1, hr1, fun _ h => (by cases h), fun hen => ?_⟩
        unfold Mem.alloc at ea
        rw [if_pos (hen _)] at ea
        cases ea
      | some b =>
        simp only
        rw [if_neg (by rw [hp1]; rintro (h | h | h); exact hp h; exact har h; omega)]
        refine ⟨_, _, m2, rfl, h2.of fun a => ?_, hl1, hr1, fun room' hr' => ?_, fun _ => by simp⟩
        · simp only [cuesA, List.count_append, List.flatMap_append, List.flatMap_cons, List.flatMap_nil, Enc.itemA, pointA, Option.toList_none,
            Option.toList_some, List.append_nil]
          omega
        · cases hr'
          exact ⟨by simp [hp1], by simp only [List.length_append, hp1, List.length_cons, List.length_nil]; omega, har⟩

theorem initLoop_spec {can : Nat → Bool} : ∀ {es : List CuesPart} {room : Nat} {x : Cues} {m : Mem} {f : Nat → Nat}, Placed es → x.loaded = [] →
    x.pre.length ≤ room → (room ≠ 0 → x.arr ≠ none) → Holds m (fun a => (cuesA x).count a + f a) →
    ∃ b x' m', initLoop can es room x m = .ok (b, x', m') ∧ Holds m' (fun a => (cuesA x').count a + f a) ∧ x'.loaded = [] ∧ x'.rest = x.rest ∧
      (b = true → CuesPart.bad ∉ es ∧ x'.pre.map (·.2) = x.pre.map (·.2) ++ (pts es).map fresh ∧
        (pts es ≠ [] ∨ x.arr ≠ none → x'.arr ≠ none)) ∧
      (Enough can → CuesPart.bad ∉ es → b = true)
  | [], room, x, m, f, _, hl, hr, ha, h =>
    ⟨true, x, m, rfl, h, hl, rfl, fun _ => ⟨by simp, by simp [pts], fun h => h.elim (fun h => absurd rfl h) id⟩, fun _ _ => rfl⟩
  | .point pos ps :: es, room, x, m, f, hp, hl, hr, ha, h => by
    obtain ⟨r, x1, m1, e1, h1, hl1, hr1, hs, hen⟩ := preload_spec (can := can) (hp pos ps (by simp)) hl hr ha h
    unfold initLoop
    rw [e1, Res.bind_ok]
    cases r with
    | none => exact ⟨false, x1, m1, rfl, h1, hl1, hr1, fun h => (by cases h), fun h => absurd rfl (hen h)⟩
    | some room1 =>
      obtain ⟨hm, hlen, har⟩ := hs room1 rfl
      obtain ⟨b, x', m', e', h', hl', hr', ht, hen'⟩ := initLoop_spec (can := can) (es := es) (room := room1) (x := x1)
        (fun pos ps hm => hp pos ps (by simp [hm])) hl1 hlen (fun _ => har) h1
      refine ⟨b, x', m', e', h', hl', by rw [hr', hr1], fun hb => ?_, fun h1 h2 => hen' h1 (fun hc => h2 (by simp [hc]))⟩
      obtain ⟨t1, t2, t3⟩ := ht hb
      refine ⟨by simp [t1], ?_, fun _ => t3 (Or.inr har)⟩
      rw [t2, hm, List.append_assoc]
      rfl
  | .other :: es, room, x, m, f, hp, hl, hr, ha, h => by
    obtain ⟨b, x', m', e', h', hl', hr', ht, hen'⟩ := initLoop_spec (can := can) (es := es)
        (fun pos ps hm => hp pos ps (by simp [hm])) hl hr ha h
    exact ⟨b, x', m', e', h', hl', hr', fun hb => ⟨by simp [(ht hb).1], (ht hb).2⟩, fun h1 h2 => hen' h1 (fun hc => h2 (by simp [hc]))⟩
  | .bad :: es, room, x, m, f, hp, hl, hr, ha, h => ⟨false, x, m, rfl, h, hl, rfl, fun h => (by cases h), fun _ h => absurd (by simp) h⟩

/-- Ready to load what is left. -/
structure Ready (x : Cues) : Prop where
  good : CuesPart.bad ∉ x.rest
  placed : Placed x.rest
  pre : x.pre.map (·.2) = (pts x.rest).map fresh
  arr : pts x.rest ≠ [] → x.arr ≠ none

theorem loadLoop_spec {can : Nat → Bool} : ∀ {es : List CuesPart} {x : Cues} {m : Mem} {f : Nat → Nat}, CuesPart.bad ∉ es → Placed es →
    x.pre.map (·.2) = (pts es).map fresh → Holds m (fun a => (cuesA x).count a + f a) →
    ∃ b x' m', loadLoop can es x m = .ok (b, x', m') ∧ Holds m' (fun a => (cuesA x').count a + f a) ∧ x'.arr = x.arr ∧
      (b = true → ∃ ps a p, pointsIn es = ps :: pointsIn x'.rest ∧ x'.loaded = x.loaded ++ [(a, p)] ∧ p.show = .ok (pointSaid ps) ∧ PointGood ps ∧
        CuesPart.bad ∉ x'.rest ∧ Placed x'.rest ∧ x'.pre.map (·.2) = (pts x'.rest).map fresh) ∧
      (b = false → x'.loaded = x.loaded ∧ x'.rest = []) ∧
      (Enough can → (∃ ps, (pointsIn es).head? = some ps ∧ PointGood ps) → b = true)
  | [], x, m, f, _, _, _, h => ⟨false, _, m, rfl, h, rfl, fun h => (by cases h), fun _ => ⟨rfl, rfl⟩, fun _ ⟨ps, h, _⟩ => (by cases h)⟩
  | .other :: es, x, m, f, hb, hp, hx, h => by
    obtain ⟨b, x', m', e, h1, h2, h3, h4, h5⟩ := loadLoop_spec (can := can) (es := es) (fun hc => hb (by simp [hc]))
      (fun pos ps hm => hp pos ps (by simp [hm])) hx h
    exact ⟨b, x', m', e, h1, h2, h3, h4, h5⟩
  | .bad :: es, x, m, f, hb, _, _, h => absurd (by simp) hb
  | .point pos ps :: es, x, m, f, hb, hp, hx, h => by
    have hpt : pts (.point pos ps :: es) = (pos, ps) :: pts es := rfl
    rw [hpt] at hx
    unfold loadLoop
    cases hq : x.pre with
    | nil =>
      rw [hq] at hx
      cases hx
    | cons q pre =>
      obtain ⟨a, p⟩ := q
      rw [hq] at hx
      simp only [List.map_cons, List.cons.injEq] at hx
      obtain ⟨hpe, hpre⟩ := hx
      have hpe : p = { time := -(pos : Int) } := hpe
      subst hpe
      simp only
      rw [if_neg (by omega)]
      obtain ⟨b, p, m1, e1, h1, hs, hen⟩ := load_spec (can := can) (ps := ps) (hp pos ps (by simp)) h
      rw [e1, Res.bind_ok]
      have hcount : ∀ c, (cuesA x).count c = x.arr.toList.count c + ((x.loaded.flatMap (Enc.itemA pointA)).count c + ([a].count c +
          (pre.flatMap (Enc.itemA pointA)).count c)) := fun c => by
        simp only [cuesA, hq, List.count_append, List.flatMap_append, List.flatMap_cons, Enc.itemA, pointA, Option.toList_none]
      cases b with
      | false =>
        refine ⟨false, _, m1, rfl, h1.of fun c => ?_, rfl, fun h => (by cases h), fun _ => ⟨rfl, rfl⟩, fun h ⟨qs, h1, h2⟩ => ?_⟩
        · rw [hcount]
          simp only [cuesA, List.count_append, List.flatMap_append, List.flatMap_cons, Enc.itemA, List.count_cons, List.count_nil]
          omega
        · cases h1
          exact hen h2 h
      | true =>
        refine ⟨true, _, m1, rfl, h1.of fun c => ?_, rfl, fun _ => ?_, fun h => (by cases h), fun _ _ => rfl⟩
        · rw [hcount]
          simp only [cuesA, List.count_append, List.flatMap_append, List.flatMap_cons, List.flatMap_nil, Enc.itemA, List.count_cons, List.count_nil]
          omega
        · exact ⟨ps, a, p, rfl, rfl, (hs rfl).1, (hs rfl).2, fun hc => hb (by simp [hc]), fun pos ps hm => hp pos ps (by simp [hm]), hpre⟩

theorem init_spec {can : Nat → Bool} {all : List CuesPart} {x : Cues} {m : Mem} {f : Nat → Nat} (hp : Placed all)
    (hx : x = { rest := all } ∨ (x.arr ≠ none ∧ Ready x)) (h : Holds m (fun a => (cuesA x).count a + f a)) :
    ∃ b x' m', init can all x m = .ok (b, x', m') ∧ Holds m' (fun a => (cuesA x').count a + f a) ∧ x'.loaded = x.loaded ∧ x'.rest = x.rest ∧
      (b = true → Ready x') ∧ (Enough can → CuesPart.bad ∉ all → b = true) := by
  unfold init
  rcases hx with rfl | ⟨ha, hr⟩
  · rw [if_neg (by simp), if_neg (by simp)]
    obtain ⟨b, x', m', e', h', hl', hr', ht, hen'⟩ := initLoop_spec (can := can) (es := all) (room := 0) (x := { rest := all }) hp rfl (by simp)
      (by simp) h
    refine ⟨b, x', m', e', h', hl', hr', fun hb => ?_, hen'⟩
    obtain ⟨t1, t2, t3⟩ := ht hb
    have hr' : x'.rest = all := hr'
    exact ⟨by rw [hr']; exact t1, by rw [hr']; exact hp, by rw [hr', t2]; rfl, by rw [hr']; exact fun h => t3 (Or.inl h)⟩
  · rw [if_pos ha]
    exact ⟨true, x, m, rfl, h, rfl, rfl, fun _ => hr, fun _ _ => rfl⟩

/-- The states between calls: nothing loaded yet, some loaded and more to load, or done. -/
def Between (all : List CuesPart) (x : Cues) : Prop := x = { rest := all } ∨ (x.arr ≠ none ∧ Ready x) ∨ x.rest = []

theorem shown_append : ∀ {xs : List (Nat × Point)} {vs : List (Int × List Pos)} {a : Nat} {p : Point} {v : Int × List Pos},
    shown xs = .ok vs → p.show = .ok v → shown (xs ++ [(a, p)]) = .ok (vs ++ [v])
  | [], vs, a, p, v, h1, h2 => by
    cases h1
    show (p.show >>= _) = _
    rw [h2]
    rfl
  | (b, q) :: xs, vs, a, p, v, h1, h2 => by
    obtain ⟨w, e1, h1⟩ := Res.bind_eq_ok.mp h1
    obtain ⟨ws, e2, h1⟩ := Res.bind_eq_ok.mp h1
    cases h1
    show (q.show >>= _) = _
    rw [e1, Res.bind_ok]
    show (shown (xs ++ [(a, p)]) >>= _) = _
    rw [shown_append e2 h2]
    rfl

theorem loads_done {can : Nat → Bool} {all : List CuesPart} {x : Cues} (hx : x.rest = []) : ∀ (n : Nat) (m : Mem),
    loads can all n x m = .ok (List.replicate n false, x, m)
  | 0, m => rfl
  | n + 1, m => by
    unfold loads loadCuePoint
    rw [hx]
    simp only
    rw [Res.bind_ok]
    simp only
    rw [loads_done hx n m]
    rfl

theorem loads_spec {can : Nat → Bool} {all : List CuesPart} (hp : Placed all) : ∀ {n : Nat} {x : Cues} {m : Mem} {vs : List (Int × List Pos)},
    Between all x → shown x.loaded = .ok vs → Holds m (fun a => (cuesA x).count a + 0) →
    ∃ k x' m', loads can all n x m = .ok (List.replicate k true ++ List.replicate (n - k) false, x', m') ∧ k ≤ n ∧
      k ≤ (pointsIn x.rest).length ∧ Holds m' (fun a => (cuesA x').count a + 0) ∧ x'.loaded.length = x.loaded.length + k ∧
      shown x'.loaded = .ok (vs ++ ((pointsIn x.rest).take k).map pointSaid) ∧ (∀ ps ∈ (pointsIn x.rest).take k, PointGood ps) ∧
      (Enough can → CuesPart.bad ∉ all → (∀ ps ∈ (pointsIn x.rest).take n, PointGood ps) → k = min n (pointsIn x.rest).length)
  | 0, x, m, vs, _, hv, h => ⟨0, x, m, rfl, Nat.le_refl 0, Nat.zero_le _, h, rfl, by simpa using hv, by simp, fun _ _ _ => by simp⟩
  | n + 1, x, m, vs, hx, hv, h => by
    by_cases hr : x.rest = []
    · refine ⟨0, x, m, ?_, Nat.zero_le _, Nat.zero_le _, h, rfl, by simpa using hv, by simp, fun _ _ _ => by simp [hr, pointsIn]⟩
      simpa using loads_done hr (n + 1) m
    · obtain ⟨b, x1, m1, e1, h1, hl1, hr1, hb1, hen1⟩ := init_spec (can := can) hp (hx.elim Or.inl fun h => h.elim Or.inr fun h => absurd h hr) h
      have e0 : loadCuePoint can all x m = (if !b then .ok (false, { x1 with rest := [] }, m1) else loadLoop can x1.rest x1 m1) := by
        unfold loadCuePoint
        cases hq : x.rest with
        | nil => exact absurd hq hr
        | cons q qs =>
          simp only
          rw [e1, Res.bind_ok]
      cases b with
      | false =>
        refine ⟨0, { x1 with rest := [] }, m1, ?_, Nat.zero_le _, Nat.zero_le _, h1, by rw [← hl1]; rfl, by simpa [hl1] using hv, by simp,
          fun h2 h3 _ => (by cases hen1 h2 h3)⟩
        unfold loads
        rw [e0]
        simp only [Bool.not_false, if_true]
        rw [Res.bind_ok]
        simp only
        rw [loads_done rfl n m1]
        rfl
      | true =>
        have hrd := hb1 rfl
        obtain ⟨b, x2, m2, e2, h2, ha2, ht, hf, hen2⟩ := loadLoop_spec (can := can) hrd.good hrd.placed hrd.pre h1
        simp only [Bool.not_true, Bool.false_eq_true, if_false] at e0
        rw [e2] at e0
        cases b with
        | false =>
          obtain ⟨hl2, hr2⟩ := hf rfl
          refine ⟨0, x2, m2, ?_, Nat.zero_le _, Nat.zero_le _, h2, by rw [hl2, hl1]; rfl, by simpa [hl2, hl1] using hv, by simp, fun h3 _ h5 => ?_⟩
          · unfold loads
            rw [e0, Res.bind_ok]
            simp only
            rw [loads_done hr2 n m2]
            rfl
          · cases hq : pointsIn x.rest with
            | nil => simp
            | cons q qs =>
              rw [hr1, hq] at hen2
              have := hen2 h3 ⟨q, rfl, h5 q (by rw [hq]; simp)⟩
              cases this
        | true =>
          obtain ⟨ps, a, p, t1, t2, t3, t4, t5, t6, t7⟩ := ht rfl
          rw [hr1] at t1
          have harr : x2.arr ≠ none := by
            rw [ha2]
            apply hrd.arr
            intro hc
            have := pts_points x1.rest
            rw [hc, hr1, t1] at this
            cases this
          obtain ⟨k, x3, m3, e3, k1, k2, k3, k4, k5, k6, k7⟩ := loads_spec hp (can := can) (n := n) (x := x2) (m := m2) (vs := vs ++ [pointSaid ps])
            (Or.inr (Or.inl ⟨harr, ⟨t5, t6, t7, fun _ => harr⟩⟩)) (by rw [t2, hl1]; exact shown_append hv t3) h2
          refine ⟨k + 1, x3, m3, ?_, by omega, by rw [t1]; simp; omega, k3, by rw [k4, t2, hl1]; simp; omega, ?_, ?_, ?_⟩
          · unfold loads
            rw [e0, Res.bind_ok]
            simp only
            rw [e3, Res.bind_ok, List.replicate_succ, Nat.succ_sub_succ]
            rfl
          · rw [k5, t1, List.take_succ_cons, List.map_cons, List.append_assoc]
            rfl
          · rw [t1, List.take_succ_cons]
            intro q hq
            rcases List.mem_cons.mp hq with rfl | hq
            · exact t4
            · exact k6 q hq
          · intro h3 h4 h5
            have := k7 h3 h4 (fun q hq => h5 q (by rw [t1, List.take_succ_cons]; simp [hq]))
            rw [this, t1]
            simp only [List.length_cons]
            omega

theorem destroy_spec {x : Cues} {m : Mem} (h : Holds m fun a => (cuesA x).count a + 0) : ∃ m', destroy x m = .ok m' ∧ m'.live = [] := by
  obtain ⟨m1, e1, h1⟩ := deleteItems_spec (g := pointA) (destroy := Point.destroy) (P := fun _ => True) (fun _ _ _ _ h => free_spec h)
    (xs := x.loaded ++ x.pre) (f := fun a => x.arr.toList.count a + 0) (fun _ _ => trivial)
    (h.of fun a => by simp only [cuesA, List.count_append]; omega)
  obtain ⟨m2, e2, h2⟩ := free_spec h1
  refine ⟨m2, ?_, Texts.nothing_live h2⟩
  unfold destroy
  rw [e1, Res.bind_ok, e2]

end Verif.Par.CuesMem

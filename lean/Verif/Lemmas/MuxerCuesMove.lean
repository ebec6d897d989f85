/-
Moving the cues in front of the clusters: the recursion terminates and adds the right amount.
-/
import Verif.Lemmas.SeekHead
import Verif.Model.MuxerCues

namespace Verif.Mux
open Verif Spec

theorem getUIntSize_mono {a b : Nat} (h : a ≤ b) : getUIntSize a ≤ getUIntSize b := by
  unfold getUIntSize
  repeat' split
  all_goals omega

theorem getCodedUIntSize_mono {a b : Nat} (h : a ≤ b) : getCodedUIntSize a ≤ getCodedUIntSize b := by
  unfold getCodedUIntSize
  repeat' split
  all_goals omega

theorem elemSize_eq (id v : Nat) : ebmlElementSizeUInt id v = getUIntSize id + getUIntSize v + 1 := by
  unfold ebmlElementSizeUInt ebmlElementSizeUIntFixed; simp

theorem cue_ids : getUIntSize kMkvCues = 4 ∧ getUIntSize kMkvCuePoint = 1 ∧ getUIntSize kMkvCueTime = 1 ∧
    getUIntSize kMkvCueTrackPositions = 1 ∧ getUIntSize kMkvCueTrack = 1 ∧
    getUIntSize kMkvCueClusterPosition = 1 ∧ getUIntSize kMkvCueBlockNumber = 2 := by decide

/-- The size of a cue point, spelled out. -/
theorem CuePoint.size_eq (c : CuePoint) :
    c.size = 10 + getUIntSize c.time + getUIntSize c.track + getUIntSize c.clusterPos +
      (if c.numbered then 3 + getUIntSize c.blockNumber else 0) ∧
    c.payloadSize + 2 = c.size ∧ c.positionsSize + 6 + getUIntSize c.time = c.size := by
  obtain ⟨-, h1, h2, h3, h4, h5, h6⟩ := cue_ids
  have b1 := getUIntSize_bounds c.time
  have b2 := getUIntSize_bounds c.track
  have b3 := getUIntSize_bounds c.clusterPos
  have b4 := getUIntSize_bounds c.blockNumber
  have hp : c.positionsSize = 4 + getUIntSize c.clusterPos + getUIntSize c.track +
      (if c.numbered then 3 + getUIntSize c.blockNumber else 0) := by
    unfold CuePoint.positionsSize
    rw [elemSize_eq, elemSize_eq, elemSize_eq, h4, h5, h6]
    split <;> omega
  have hps : c.positionsSize ≤ 31 := by rw [hp]; split <;> omega
  have hpay : c.payloadSize = 2 + getUIntSize c.time + (2 + c.positionsSize) := by
    unfold CuePoint.payloadSize ebmlMasterElementSize
    rw [elemSize_eq, h2, h3, small_coded (v := c.positionsSize) (by omega)]; omega
  have hsz : c.size = 2 + c.payloadSize := by
    unfold CuePoint.size ebmlMasterElementSize
    rw [h1, small_coded (v := c.payloadSize) (by omega)]
  refine ⟨?_, by omega, by omega⟩
  rw [hsz, hpay, hp]; omega

theorem CuePoint.size_le (c : CuePoint) : c.size ≤ 45 := by
  rw [(c.size_eq).1]
  have b1 := getUIntSize_bounds c.time
  have b2 := getUIntSize_bounds c.track
  have b3 := getUIntSize_bounds c.clusterPos
  have b4 := getUIntSize_bounds c.blockNumber
  split <;> omega

theorem CuePoint.size_moved (c : CuePoint) (p : Nat) :
    CuePoint.size { c with clusterPos := p } + getUIntSize c.clusterPos = c.size + getUIntSize p := by
  have h1 := (CuePoint.size_eq { c with clusterPos := p }).1
  have h2 := (CuePoint.size_eq c).1
  rw [show CuePoint.numbered { c with clusterPos := p } = c.numbered from rfl] at h1
  simp only at h1
  omega

/-- Cue points with every cluster position increased, by an amount that depends on the index. -/
def shift (f : Nat → Nat) (cs : List CuePoint) : List CuePoint :=
  cs.mapIdx fun j c => { c with clusterPos := c.clusterPos + f j }

theorem shift_length (f : Nat → Nat) (cs : List CuePoint) : (shift f cs).length = cs.length := by
  simp [shift]

theorem shift_get (f : Nat → Nat) (cs : List CuePoint) (j : Nat) :
    (shift f cs)[j]? = cs[j]?.map fun c => { c with clusterPos := c.clusterPos + f j } := by
  simp [shift]

theorem shift_shift (f g : Nat → Nat) (cs : List CuePoint) :
    shift g (shift f cs) = shift (fun j => f j + g j) cs := by
  apply List.ext_getElem?
  intro j
  simp only [shift_get, Option.map_map]
  cases cs[j]? <;> simp [Nat.add_assoc]

theorem shift_congr {f g : Nat → Nat} {cs : List CuePoint} (h : ∀ j, j < cs.length → f j = g j) :
    shift f cs = shift g cs := by
  apply List.ext_getElem?
  intro j
  simp only [shift_get]
  by_cases hj : j < cs.length
  · rw [h j hj]
  · rw [List.getElem?_eq_none (by omega)]; rfl

theorem set_shift {cs : List CuePoint} {i : Nat} {c : CuePoint} (h : cs[i]? = some c) (d : Nat) :
    cs.set i { c with clusterPos := c.clusterPos + d } = shift (fun j => if j = i then d else 0) cs := by
  apply List.ext_getElem?
  intro j
  rw [shift_get, List.getElem?_set]
  have hi : i < cs.length := by
    rcases Nat.lt_or_ge i cs.length with h1 | h1
    · exact h1
    · rw [List.getElem?_eq_none h1] at h; cases h
  by_cases hj : i = j
  · subst hj
    rw [if_pos rfl, if_pos hi, h]; simp
  · rw [if_neg hj]
    cases cs[j]? <;> simp [Ne.symm hj]

/-- How much the cluster positions can still grow in width. -/
def slack : List CuePoint → Nat
  | [] => 0
  | c :: cs => (8 - getUIntSize c.clusterPos) + slack cs

theorem slack_le (cs : List CuePoint) : slack cs ≤ 7 * cs.length := by
  induction cs with
  | nil => simp [slack]
  | cons c cs ih =>
    have := getUIntSize_bounds c.clusterPos
    simp only [slack, List.length_cons]; omega

theorem slack_set : ∀ {cs : List CuePoint} {i : Nat} {c : CuePoint} (_ : cs[i]? = some c) (p : Nat)
    (_ : c.clusterPos ≤ p),
    slack (cs.set i { c with clusterPos := p }) + getUIntSize p = slack cs + getUIntSize c.clusterPos ∧
    cuesPayload (cs.set i { c with clusterPos := p }) + c.size =
      cuesPayload cs + CuePoint.size { c with clusterPos := p } := by
  intro cs
  induction cs with
  | nil => intro i c h; simp at h
  | cons x xs ih =>
    intro i c h p hp
    have hm := getUIntSize_mono hp
    have b1 := getUIntSize_bounds p
    cases i with
    | zero =>
      simp only [List.getElem?_cons_zero, Option.some.injEq] at h
      subst h
      simp only [List.set_cons_zero, slack, cuesPayload]
      omega
    | succ i =>
      simp only [List.getElem?_cons_succ] at h
      obtain ⟨i1, i2⟩ := ih h p hp
      simp only [List.set_cons_succ, slack, cuesPayload]
      omega

theorem cuesPayload_le (cs : List CuePoint) : cuesPayload cs ≤ 45 * cs.length := by
  induction cs with
  | nil => simp [cuesPayload]
  | cons c cs ih =>
    have := c.size_le
    simp only [cuesPayload, List.length_cons]; omega

/-- Payload and size field of the Cues element. -/
def ext (total : Nat) : Nat := total + getCodedUIntSize total

theorem ext_mono {a b : Nat} (h : a ≤ b) : ext a ≤ ext b := by
  have := getCodedUIntSize_mono h
  unfold ext; omega

theorem ext_le (cs : List CuePoint) : ext (cuesPayload cs) ≤ 45 * cs.length + 8 := by
  have := cuesPayload_le cs
  have := (getCodedUIntSize_bounds (cuesPayload cs)).2
  unfold ext; omega

theorem subU64_le {a b : Nat} (h : b ≤ a) (ha : a < 2 ^ 64) : subU64 a b = a - b := by
  unfold subU64 toU64
  rw [show (a : Int) - b = ((a - b : Nat) : Int) by omega]
  generalize hq : (2 ^ 64 : Nat) = q at *
  omega

/-- What must hold of the state, and of the room above every position: `add j` is still to be added
to position `j` by the pending calls. -/
structure Ready (m : Moving) (add : Nat → Nat) : Prop where
  total : m.total = cuesPayload m.cues
  room : ∀ j c, m.cues[j]? = some c →
    c.clusterPos + (45 * m.cues.length + 8 - ext m.total) + add j < 2 ^ 64
  few : m.cues.length < 2 ^ 40

/-- What a call (or a sequence of calls) achieves. -/
def Moves (m m' : Moving) (add : Nat → Nat) : Prop :=
  m'.total = cuesPayload m'.cues ∧ ext m.total ≤ ext m'.total ∧
  m'.cues = shift (fun j => ext m'.total - ext m.total + add j) m.cues ∧
  slack m'.cues ≤ slack m.cues

theorem Moves.length {m m' : Moving} {add : Nat → Nat} (h : Moves m m' add) :
    m'.cues.length = m.cues.length := by rw [h.2.2.1, shift_length]

theorem Moves.refl {m : Moving} (h : m.total = cuesPayload m.cues) {add : Nat → Nat}
    (ha : ∀ j, j < m.cues.length → add j = 0) : Moves m m add := by
  refine ⟨h, Nat.le_refl _, ?_, Nat.le_refl _⟩
  have : shift (fun j => ext m.total - ext m.total + add j) m.cues = shift (fun _ => 0) m.cues :=
    shift_congr fun j hj => by rw [ha j hj]; omega
  rw [this]
  apply List.ext_getElem?
  intro j
  rw [shift_get]
  cases m.cues[j]? <;> simp

theorem Moves.trans {m m' m'' : Moving} {a b c : Nat → Nat} (h1 : Moves m m' a) (h2 : Moves m' m'' b)
    (hc : ∀ j, j < m.cues.length → c j = a j + b j) : Moves m m'' c := by
  obtain ⟨-, e1, c1, s1⟩ := h1
  obtain ⟨t2, e2, c2, s2⟩ := h2
  refine ⟨t2, by omega, ?_, by omega⟩
  rw [c2, c1, shift_shift]
  refine shift_congr fun j hj => ?_
  rw [hc j hj]; omega

/-- The room left after a call. -/
theorem Ready.after {m m' : Moving} {a b : Nat → Nat} (hr : Ready m fun j => a j + b j)
    (hm : Moves m m' a) : Ready m' b := by
  have hl := hm.length
  obtain ⟨t, e, c, s⟩ := hm
  refine ⟨t, fun j x hx => ?_, by rw [hl]; exact hr.few⟩
  rw [c, shift_get] at hx
  cases hy : m.cues[j]? with
  | none => rw [hy] at hx; cases hx
  | some y =>
    rw [hy] at hx
    simp only [Option.map_some, Option.some.injEq] at hx
    subst hx
    have h1 := hr.room j y hy
    have h2 := ext_le m'.cues
    rw [← t, hl] at h2
    simp only
    rw [hl]
    generalize hq : (2 ^ 64 : Nat) = q at *
    omega

theorem moveEach_moves {helper : Nat → Moving → Option Moving} {d depth : Nat}
    (hh : ∀ i m, i < m.cues.length → slack m.cues < depth → Ready m (fun j => if j = i then d else 0) →
      ∃ m', helper i m = some m' ∧ Moves m m' fun j => if j = i then d else 0) :
    ∀ (is : List Nat) (m : Moving), is.Nodup → (∀ i ∈ is, i < m.cues.length) → slack m.cues < depth →
      Ready m (fun j => if j ∈ is then d else 0) →
      ∃ m', moveEach helper is m = some m' ∧ Moves m m' fun j => if j ∈ is then d else 0 := by
  intro is
  induction is with
  | nil =>
    intro m _ _ _ hr
    exact ⟨m, rfl, Moves.refl hr.total fun j _ => by simp⟩
  | cons i is ih =>
    intro m hn hb hs hr
    obtain ⟨hni, hn'⟩ := List.nodup_cons.mp hn
    have key : ∀ j, (if j ∈ i :: is then d else 0) =
        (if j = i then d else 0) + (if j ∈ is then d else 0) := by
      intro j
      by_cases hj : j = i
      · subst hj; simp [hni]
      · simp [hj]
    have hr2 : Ready m fun j => (if j = i then d else 0) + (if j ∈ is then d else 0) := by
      have : (fun j => if j ∈ i :: is then d else 0) =
        fun j => (if j = i then d else 0) + (if j ∈ is then d else 0) := funext key
      rwa [this] at hr
    have hr1 : Ready m fun j => if j = i then d else 0 :=
      ⟨hr2.total, fun j c hc => by have := hr2.room j c hc; omega, hr2.few⟩
    obtain ⟨m1, h1, g1⟩ := hh i m (hb i (by simp)) hs hr1
    obtain ⟨m2, h2, g2⟩ := ih m1 hn' (fun x hx => by rw [g1.length]; exact hb x (by simp [hx]))
      (by have := g1.2.2.2; omega) (hr2.after g1)
    exact ⟨m2, by simp [moveEach, h1, h2], g1.trans g2 fun j _ => key j⟩

theorem moveHelper_moves : ∀ (depth d i : Nat) (m : Moving), i < m.cues.length → slack m.cues < depth →
    Ready m (fun j => if j = i then d else 0) →
    ∃ m', moveHelper depth d i m = some m' ∧ Moves m m' fun j => if j = i then d else 0 := by
  intro depth
  induction depth with
  | zero => intro d i m _ h; omega
  | succ depth ih =>
    intro d i m hi hs hr
    obtain ⟨c, hc⟩ : ∃ c, m.cues[i]? = some c := ⟨_, List.getElem?_eq_getElem hi⟩
    have hroom := hr.room i c hc
    rw [if_pos rfl] at hroom
    have hpos : (c.clusterPos + d) % 2 ^ 64 = c.clusterPos + d := Nat.mod_eq_of_lt (by omega)
    obtain ⟨s1, s2⟩ := slack_set hc (c.clusterPos + d) (by omega)
    have hw := getUIntSize_mono (show c.clusterPos ≤ c.clusterPos + d by omega)
    have hwb := getUIntSize_bounds (c.clusterPos + d)
    have hsz := c.size_moved (c.clusterPos + d)
    have hle := CuePoint.size_le { c with clusterPos := c.clusterPos + d }
    have htot := cuesPayload_le m.cues
    have hfew := hr.few
    have hT := hr.total
    have hb : subU64 (CuePoint.size { c with clusterPos := c.clusterPos + d }) c.size =
        getUIntSize (c.clusterPos + d) - getUIntSize c.clusterPos := by
      rw [subU64_le (by omega) (by omega)]; omega
    generalize hbv : getUIntSize (c.clusterPos + d) - getUIntSize c.clusterPos = b at *
    have he : (m.total + b) % 2 ^ 64 = m.total + b := Nat.mod_eq_of_lt (by omega)
    have hcm := getCodedUIntSize_mono (show m.total ≤ m.total + b by omega)
    have hcb := (getCodedUIntSize_bounds (m.total + b)).2
    have hg : subU64 (getCodedUIntSize (m.total + b)) (getCodedUIntSize m.total) =
        getCodedUIntSize (m.total + b) - getCodedUIntSize m.total := subU64_le hcm (by omega)
    have hd : (getCodedUIntSize (m.total + b) - getCodedUIntSize m.total + b) % 2 ^ 64 =
        ext (m.total + b) - ext m.total := by
      rw [Nat.mod_eq_of_lt (by omega)]; unfold ext; omega
    have hem := ext_mono (show m.total ≤ m.total + b by omega)
    unfold moveHelper
    rw [hc]
    simp only
    rw [hpos, hb, he, hg, hd]
    -- the update itself
    have hm1 : (⟨m.cues.set i { c with clusterPos := c.clusterPos + d }, m.total + b⟩ : Moving).total =
        cuesPayload (⟨m.cues.set i { c with clusterPos := c.clusterPos + d }, m.total + b⟩ : Moving).cues := by
      simp only; omega
    by_cases hz : ext (m.total + b) - ext m.total > 0
    · rw [if_pos hz]
      have hb0 : 0 < b := by
        rcases Nat.eq_zero_or_pos b with h | h
        · rw [h] at hz; simp at hz
        · exact h
      have hlen : (m.cues.set i { c with clusterPos := c.clusterPos + d }).length = m.cues.length := by simp
      have hcap := ext_le (m.cues.set i { c with clusterPos := c.clusterPos + d })
      have hmem : ∀ j, j < m.cues.length → (j ∈ List.range m.cues.length) := fun j h => by simpa using h
      obtain ⟨m', h1, g1⟩ := moveEach_moves (helper := moveHelper depth (ext (m.total + b) - ext m.total))
        (d := ext (m.total + b) - ext m.total) (depth := depth)
        (fun i m h1 h2 h3 => ih _ i m h1 h2 h3) (List.range m.cues.length)
        ⟨m.cues.set i { c with clusterPos := c.clusterPos + d }, m.total + b⟩ List.nodup_range
        (fun x hx => by simpa using hx) (by simp only; omega)
        ⟨hm1, fun j x hx => by
          simp only at hx ⊢
          rw [set_shift hc, shift_get] at hx
          cases hy : m.cues[j]? with
          | none => rw [hy] at hx; cases hx
          | some y =>
            rw [hy] at hx
            simp only [Option.map_some, Option.some.injEq] at hx
            subst hx
            have := hr.room j y hy
            simp only at this hm1 ⊢
            rw [← hm1, hlen] at hcap
            rw [hlen]
            have hj : j < m.cues.length := by
              rcases Nat.lt_or_ge j m.cues.length with h1 | h1
              · exact h1
              · rw [List.getElem?_eq_none h1] at hy; cases hy
            rw [if_pos (hmem j hj)]
            generalize (if j = i then d else 0) = x at *
            clear hd hg hb he hpos hsz hle hbv s1 s2 hw hwb hroom
            generalize hq : (2 ^ 64 : Nat) = q at *
            omega, by simp only; rw [hlen]; exact hfew⟩
      refine ⟨m', h1, ?_⟩
      obtain ⟨t, e, cc, sl⟩ := g1
      simp only at e cc sl
      refine ⟨t, by omega, ?_, by omega⟩
      rw [cc, set_shift hc, shift_shift]
      refine shift_congr fun j hj => ?_
      simp only [if_pos (hmem j hj)]
      generalize (if j = i then d else 0) = x
      clear hd
      omega
    · rw [if_neg hz]
      refine ⟨_, rfl, hm1, by simp only; omega, ?_, by simp only; omega⟩
      simp only
      rw [set_shift hc]
      refine shift_congr fun j hj => ?_
      omega

theorem Cues.size_ext (q : Cues) : q.size = 4 + ext (cuesPayload q.entries) := by
  unfold Cues.size ebmlMasterElementSize ext
  rw [cue_ids.1]; omega

/-- Moving the cues: with depth `7 n + 1` the recursion is complete, and all positions have grown
by the final size of the Cues element. -/
theorem Cues.move_spec {q : Cues} {depth : Nat} (hd : 7 * q.entries.length < depth)
    (hn : q.entries.length < 2 ^ 40)
    (hp : ∀ c ∈ q.entries, c.clusterPos + 45 * q.entries.length + 12 < 2 ^ 64) :
    ∃ m, q.move depth = some m ∧ m.total = cuesPayload m.cues ∧
      m.cues = shift (fun _ => Cues.size { q with entries := m.cues }) q.entries := by
  have hx := q.size_ext
  have he := ext_le q.entries
  obtain ⟨m, h1, t, e, c, -⟩ := moveEach_moves (helper := moveHelper depth q.size) (d := q.size)
    (depth := depth) (fun i m h1 h2 h3 => moveHelper_moves _ _ i m h1 h2 h3)
    (List.range q.entries.length) ⟨q.entries, cuesPayload q.entries⟩ List.nodup_range
    (fun i hi => by simpa using hi) (by have := slack_le q.entries; simp only; omega)
    ⟨rfl, fun j c hc => by
      have := hp c (List.mem_of_getElem? hc)
      simp only
      generalize hq : (2 ^ 64 : Nat) = q at *
      split <;> omega, hn⟩
  refine ⟨m, h1, t, ?_⟩
  simp only at e c
  have hl : m.cues.length = q.entries.length := by rw [c, shift_length]
  rw [Cues.size_ext]
  simp only
  rw [← t]
  conv => lhs; rw [c]
  refine shift_congr fun j hj => ?_
  rw [if_pos (by simpa using hj)]
  omega

theorem moveEach_mono {f g : Nat → Moving → Option Moving}
    (h : ∀ i m m', f i m = some m' → g i m = some m') :
    ∀ {is : List Nat} {m m' : Moving}, moveEach f is m = some m' → moveEach g is m = some m' := by
  intro is
  induction is with
  | nil => intro m m' hm; exact hm
  | cons i is ih =>
    intro m m' hm
    unfold moveEach at hm ⊢
    cases hf : f i m with
    | none => rw [hf] at hm; cases hm
    | some x => rw [hf] at hm; rw [h i m x hf]; exact ih hm

theorem moveHelper_mono : ∀ (depth d i : Nat) (m m' : Moving), moveHelper depth d i m = some m' →
    moveHelper (depth + 1) d i m = some m' := by
  intro depth
  induction depth with
  | zero => intro d i m m' h; cases h
  | succ depth ih =>
    intro d i m m' h
    rw [moveHelper] at h ⊢
    split
    · rename_i hx; rw [hx] at h; exact h
    · rename_i hx
      rw [hx] at h
      simp only at h ⊢
      split
      · rename_i hz
        rw [if_pos hz] at h
        exact moveEach_mono (fun i m m' => ih _ i m m') h
      · rename_i hz
        rw [if_neg hz] at h
        exact h

theorem Cues.move_mono {q : Cues} {a b : Nat} {m : Moving} (h : q.move a = some m) (hab : a ≤ b) :
    q.move b = some m := by
  induction hab with
  | refl => exact h
  | step _ ih => exact moveEach_mono (fun i m m' => moveHelper_mono _ _ i m m') ih

end Verif.Mux

/-
Reading cues.
-/
import Verif.Lemmas.MuxerCues
import Verif.Model.ParserCues

namespace Verif.Par
open Verif Spec Mux

theorem headerIn_at {n id : Nat} (hid : IsId n id) {r : Rdr} {p stop : Nat} {payload : Bytes}
    (h : At r.data p (element id payload)) (hsz : payload.length + 1 < 2 ^ 56)
    (hstop : p + (element id payload).length ≤ stop) :
    headerIn r p stop = .ok ⟨p + n + sizeWidth payload.length, id, payload.length⟩ := by
  have hl := element_length_id hid payload
  unfold headerIn
  rw [readID_at hid h]
  simp only
  rw [if_neg (by omega), readSize_at hid h hsz]
  simp only
  rw [if_neg (by omega), if_neg (by omega)]

theorem walkIn_unfold {σ : Type} (r : Rdr) (stop : Nat) (step : Nat → Hdr → σ → Res (Bool × σ)) (pos : Nat)
    (st : σ) : walkIn r stop step pos st =
      if pos < stop then
        match headerIn r pos stop with
        | .error _ => .ok (false, st)
        | .ok h =>
          match step pos h st with
          | .err c => .err c
          | .ub => .ub
          | .ok (false, st') => .ok (false, st')
          | .ok (true, st') => walkIn r stop step (h.pos + h.size) st'
      else .ok (true, st) := by
  rw [walkIn.eq_1]
  split
  · split <;> simp_all <;> rfl
  · rfl

theorem walkIn_end {σ : Type} {r : Rdr} {stop : Nat} {step : Nat → Hdr → σ → Res (Bool × σ)} {pos : Nat}
    {st : σ} (h : stop ≤ pos) : walkIn r stop step pos st = .ok (true, st) := by
  rw [walkIn_unfold, if_neg (by omega)]

/-- One good element is consumed by one step. -/
theorem walkIn_step {σ : Type} {n id : Nat} (hid : IsId n id) {r : Rdr} {p stop : Nat} {payload : Bytes}
    {step : Nat → Hdr → σ → Res (Bool × σ)} {st st' : σ}
    (h : At r.data p (element id payload)) (hsz : payload.length + 1 < 2 ^ 56)
    (hstop : p + (element id payload).length ≤ stop)
    (hst : ∀ q, q = p + n + sizeWidth payload.length → At r.data q payload →
      step p ⟨q, id, payload.length⟩ st = .ok (true, st')) :
    walkIn r stop step p st = walkIn r stop step (p + (element id payload).length) st' := by
  have hl := element_length_id hid payload
  have hpos := List.length_pos_iff.mpr (element_ne_nil id payload)
  rw [walkIn_unfold, if_pos (by omega), headerIn_at hid h hsz hstop]
  simp only
  rw [hst _ rfl (at_payload hid h)]
  simp only
  rw [hl]
  congr 1; omega

theorem uintField_unserialize {r : Rdr} {q v : Nat} (hv : v < 2 ^ 63)
    (h : At r.data q (beBytes (byteWidth v) v)) :
    unserializeUInt r q (beBytes (byteWidth v) v).length = .ok v := by
  have h64 : v < 2 ^ 64 := by omega
  have hb := getUIntSize_bounds v
  have hf := getUIntSize_fits h64
  rw [← byteWidth_eq h64] at hb hf
  rw [beBytes_length]
  exact unserializeUInt_at h hb.1 hb.2 hf hv

theorem uintField_small (v : Nat) (hv : v < 2 ^ 64) : (beBytes (byteWidth v) v).length ≤ 8 := by
  rw [beBytes_length, byteWidth_eq hv]
  exact (getUIntSize_bounds v).2

/-- What is read for a block number that is or is not written. -/
def blockOf : Option Nat → Nat
  | none => 1
  | some b => b

/-- The optional last field. -/
def blockFields : Option Nat → List (Nat × Bytes)
  | none => []
  | some b => [uintField kMkvCueBlockNumber b]

theorem cuePositions_split (track pos : Nat) (block : Option Nat) : cuePositions track pos block =
      element kMkvCueTrack (beBytes (byteWidth track) track) ++
      (element kMkvCueClusterPosition (beBytes (byteWidth pos) pos) ++ elements (blockFields block)) := by
  cases block <;> rfl

theorem trackPositionParse_at {r : Rdr} {p track pos : Nat} {block : Option Nat}
    (h : At r.data p (cuePositions track pos block)) (h1 : 1 ≤ track) (ht : track < 2 ^ 63)
    (hp : pos < 2 ^ 63) (hb : ∀ b, block = some b → b < 2 ^ 63) :
    trackPositionParse r p (cuePositions track pos block).length =
      .ok (true, ⟨track, pos, blockOf block⟩) := by
  obtain ⟨-, -, -, -, i1, i2, i3⟩ := cue_isId
  unfold trackPositionParse
  rw [cuePositions_split] at h ⊢
  obtain ⟨a1, h'⟩ := at_append.mp h
  obtain ⟨a2, a3⟩ := at_append.mp h'
  have l1 := uintField_small track (by omega)
  have l2 := uintField_small pos (by omega)
  rw [walkIn_step i1 (st' := { track := (track : Int) }) a1 (by omega)
    (by simp only [List.length_append]; omega) (fun q _ ha => by
      unfold trackPositionStep
      rw [if_pos rfl, uintField_unserialize ht ha]; rfl)]
  rw [walkIn_step i2 (st' := { track := (track : Int), pos := (pos : Int) }) a2 (by omega)
    (by simp only [List.length_append]; omega) (fun q _ ha => by
      unfold trackPositionStep
      rw [if_neg (by simp only; decide), if_pos rfl, uintField_unserialize hp ha]; rfl)]
  cases block with
  | none =>
    simp only [blockFields, elements] at a3 ⊢
    rw [walkIn_end (by simp only [List.length_append, List.length_nil]; omega)]
    simp [blockOf]; omega
  | some b =>
    have hb := hb b rfl
    have l3 := uintField_small b (by omega)
    simp only [blockFields, elements, uintField, List.append_nil] at a3 ⊢
    rw [walkIn_step i3 (st' := { track := (track : Int), pos := (pos : Int), block := (b : Int) }) a3 (by omega)
      (by simp only [List.length_append]; omega) (fun q _ ha => by
        unfold trackPositionStep
        rw [if_neg (by simp only; decide), if_neg (by simp only; decide), if_pos rfl, uintField_unserialize hb ha]; rfl),
      walkIn_end (by simp only [List.length_append]; omega)]
    simp [blockOf]; omega

/-- Numbers a reader can represent. -/
structure Readable (c : Cue) : Prop where
  time : c.time < 2 ^ 63
  track1 : 1 ≤ c.track
  track : c.track < 2 ^ 63
  pos : c.pos < 2 ^ 63
  block : ∀ b, c.block = some b → b < 2 ^ 63

/-- A loaded cue point. -/
def loadedCue (c : Cue) : Par.CuePoint := ⟨c.time, [⟨c.track, c.pos, blockOf c.block⟩]⟩

theorem cuePositions_short {c : Cue} (h : Readable c) :
    (cuePositions c.track c.pos c.block).length ≤ 100 := by
  obtain ⟨-, -, -, -, i1, i2, i3⟩ := cue_isId
  have l1 := uintField_small c.track (by have := h.track; omega)
  have l2 := uintField_small c.pos (by have := h.pos; omega)
  have e1 := element_length_id i1 (beBytes (byteWidth c.track) c.track)
  have e2 := element_length_id i2 (beBytes (byteWidth c.pos) c.pos)
  have s1 := (sizeWidth_bounds (v := (beBytes (byteWidth c.track) c.track).length) (by omega)).2.1
  have s2 := (sizeWidth_bounds (v := (beBytes (byteWidth c.pos) c.pos).length) (by omega)).2.1
  rw [cuePositions_split, List.length_append, List.length_append]
  cases hb : c.block with
  | none => simp only [blockFields, elements, List.length_nil]; omega
  | some b =>
    have l3 := uintField_small b (by have := h.block b hb; omega)
    have e3 := element_length_id i3 (beBytes (byteWidth b) b)
    have s3 := (sizeWidth_bounds (v := (beBytes (byteWidth b) b).length) (by omega)).2.1
    simp only [blockFields, elements, uintField, List.append_nil]
    omega

theorem cuePoint_split (c : Cue) : cuePoint c.time c.track c.pos c.block =
    element kMkvCueTime (beBytes (byteWidth c.time) c.time) ++
    element kMkvCueTrackPositions (cuePositions c.track c.pos c.block) := by
  show elements (_ :: _ :: _) = _
  simp only [elements, uintField, List.append_nil]
  rfl

theorem cuePoint_short {c : Cue} (h : Readable c) :
    (cuePoint c.time c.track c.pos c.block).length ≤ 200 := by
  obtain ⟨-, -, i1, i2, -⟩ := cue_isId
  have l1 := uintField_small c.time (by have := h.time; omega)
  have l2 := cuePositions_short h
  have e1 := element_length_id i1 (beBytes (byteWidth c.time) c.time)
  have e2 := element_length_id i2 (cuePositions c.track c.pos c.block)
  have s1 := (sizeWidth_bounds (v := (beBytes (byteWidth c.time) c.time).length) (by omega)).2.1
  have s2 := (sizeWidth_bounds (v := (cuePositions c.track c.pos c.block).length) (by omega)).2.1
  rw [cuePoint_split, List.length_append]
  omega

theorem cueLoad_at {r : Rdr} {p : Nat} {c : Cue} (h0 : 0 < p)
    (h : At r.data p (element kMkvCuePoint (cuePoint c.time c.track c.pos c.block))) (hc : Readable c) :
    cueLoad r ⟨-(p : Int), []⟩ = .ok (true, loadedCue c) := by
  obtain ⟨-, i0, i1, i2, -⟩ := cue_isId
  have hshort := cuePoint_short hc
  have l1 := uintField_small c.time (by have := hc.time; omega)
  have l2 := cuePositions_short hc
  unfold cueLoad
  rw [if_neg (by simp only; omega)]
  simp only [Int.neg_neg, Int.toNat_natCast]
  rw [readID_at i0 h]
  simp only
  rw [if_neg (by decide), readSize_at i0 h (by omega)]
  simp only
  have ha := at_payload i0 h
  generalize p + 1 + sizeWidth (cuePoint c.time c.track c.pos c.block).length = q at ha ⊢
  rw [cuePoint_split] at ha ⊢
  obtain ⟨a1, a2⟩ := at_append.mp ha
  rw [walkIn_step i1 (st' := ((c.time : Int), 0)) a1 (by omega)
    (by simp only [List.length_append]; omega) (fun q _ ha => by
      unfold cueCountStep
      rw [if_pos rfl, uintField_unserialize hc.time ha]; rfl)]
  rw [walkIn_step i2 (st' := ((c.time : Int), 1)) a2 (by omega)
    (by simp only [List.length_append]; omega) (fun q _ ha => by
      unfold cueCountStep
      rw [if_neg (by simp only; decide), if_pos rfl]), walkIn_end (by simp only [List.length_append]; omega)]
  simp only
  unfold cueLoadPositions
  rw [if_neg (by simp only; omega)]
  rw [walkIn_step i1 (st' := []) a1 (by omega)
    (by simp only [List.length_append]; omega) (fun q _ ha => by
      unfold cuePositionStep
      rw [if_neg (by simp only; decide)])]
  rw [walkIn_step i2 (st' := [⟨c.track, c.pos, blockOf c.block⟩]) a2 (by omega)
    (by simp only [List.length_append]; omega) (fun q _ ha => by
      unfold cuePositionStep
      rw [if_pos rfl, trackPositionParse_at ha hc.track1 hc.track hc.pos hc.block]
      rfl), walkIn_end (by simp only [List.length_append]; omega)]
  rfl

/-- The preloaded entries for cue points one after the other at `p`. -/
def preloaded : Nat → List Cue → List Par.CuePoint
  | _, [] => []
  | p, c :: cs => ⟨-(p : Int), []⟩ ::
      preloaded (p + (element kMkvCuePoint (cuePoint c.time c.track c.pos c.block)).length) cs

/-- The bytes of the Cues payload before the rest. -/
theorem cuesPayload_cons (c : Cue) (cs : List Cue) : Spec.cuesPayload (c :: cs) =
    element kMkvCuePoint (cuePoint c.time c.track c.pos c.block) ++ Spec.cuesPayload cs := rfl

theorem init_walk {r : Rdr} {stop : Nat} : ∀ {cs : List Cue} {p : Nat} {ps : List Par.CuePoint} (_ : 0 < p)
    (_ : ∀ c ∈ cs, Readable c) (_ : At r.data p (Spec.cuesPayload cs))
    (_ : stop = p + (Spec.cuesPayload cs).length),
    walkIn r stop (fun idpos h ps =>
        if h.id = Mux.kMkvCuePoint then
          if idpos = 0 then .ub else .ok (true, ps ++ [(⟨-(idpos : Int), []⟩ : Par.CuePoint)])
        else .ok (true, ps)) p ps = .ok (true, ps ++ preloaded p cs) := by
  intro cs
  induction cs with
  | nil =>
    intro p ps _ _ _ hs
    rw [walkIn_end (by simp [Spec.cuesPayload, elements] at hs; omega)]
    simp [preloaded]
  | cons c cs ih =>
    intro p ps h0 hc ha hs
    obtain ⟨-, i0, -⟩ := cue_isId
    rw [cuesPayload_cons] at ha hs
    rw [List.length_append] at hs
    obtain ⟨a1, a2⟩ := at_append.mp ha
    have hshort := cuePoint_short (hc c (by simp))
    rw [walkIn_step i0 (st' := ps ++ [(⟨-(p : Int), []⟩ : Par.CuePoint)]) a1 (by omega) (by omega)
      (fun q _ _ => by rw [if_pos rfl, if_neg (by omega)])]
    rw [ih (by omega) (fun x hx => hc x (by simp [hx])) a2 (by omega)]
    simp [preloaded]

/-- Loading the next cue point when `done` are loaded and `c :: rest` are still in the file. -/
theorem load_next {r : Rdr} {q : Par.Cues} {done rest : List Cue} {c : Cue}
    (hpts : q.points = done.map loadedCue ++ preloaded q.pos (c :: rest))
    (hcount : q.count = done.length) (h0 : 0 < q.pos)
    (hc : Readable c) (ha : At r.data q.pos (Spec.cuesPayload (c :: rest)))
    (hs : q.start + q.size = q.pos + (Spec.cuesPayload (c :: rest)).length) :
    q.loadLoop r = .ok (true, { q with
      points := (done ++ [c]).map loadedCue ++
        preloaded (q.pos + (element kMkvCuePoint (cuePoint c.time c.track c.pos c.block)).length) rest,
      count := done.length + 1,
      pos := q.pos + (element kMkvCuePoint (cuePoint c.time c.track c.pos c.block)).length }) := by
  obtain ⟨-, i0, -⟩ := cue_isId
  rw [cuesPayload_cons] at ha hs
  rw [List.length_append] at hs
  obtain ⟨a1, a2⟩ := at_append.mp ha
  have hshort := cuePoint_short hc
  have hl := element_length_id i0 (cuePoint c.time c.track c.pos c.block)
  have hpos := List.length_pos_iff.mpr (element_ne_nil kMkvCuePoint (cuePoint c.time c.track c.pos c.block))
  have hnext : nextCue r (q.start + q.size) q.pos = .ok (some (q.pos,
      ⟨q.pos + 1 + sizeWidth (cuePoint c.time c.track c.pos c.block).length, kMkvCuePoint,
        (cuePoint c.time c.track c.pos c.block).length⟩)) := by
    have hh := headerIn_at i0 a1 (by omega) (stop := q.start + q.size) (by omega)
    rw [nextCue.eq_1, if_pos (by omega)]
    split
    · rename_i h1; rw [hh] at h1; cases h1
    · rename_i h1; rw [hh] at h1; cases h1
      rw [if_neg (by simp)]
  unfold Cues.loadLoop
  rw [hnext]
  simp only
  unfold Cues.loadAt
  have hget : q.points[q.count]? = some ⟨-(q.pos : Int), []⟩ := by
    rw [hpts, hcount]
    simp [preloaded]
  rw [hget]
  simp only
  rw [if_neg (by omega), cueLoad_at h0 a1 hc]
  simp only
  have hset : q.points.set q.count (loadedCue c) = (done ++ [c]).map loadedCue ++
        preloaded (q.pos + (element kMkvCuePoint (cuePoint c.time c.track c.pos c.block)).length) rest := by
    rw [hpts, hcount, List.set_append_right _ _ (by simp)]
    simp [preloaded]
  rw [hset, hcount, hl]
  simp only [Nat.add_assoc]

end Verif.Par

/-
Lemmas about the superframe index and the transport stream packetiser.
-/
import Verif.Model.Superframe
import Verif.Model.Ts
import Verif.Spec.M2ts
import Verif.Lemmas.Pes

namespace Verif.Vp9
open Verif.Spec

theorem leVal_lt (bs : Bytes) : leVal bs < 256 ^ bs.length := by
  induction bs with
  | nil => simp [leVal]
  | cons b bs ih =>
    have := b.toNat_lt
    rw [leVal, List.length_cons, Nat.pow_succ]
    omega

theorem childLength_eq (j acc : Nat) (bs : Bytes) (hj : j + bs.length ≤ 4) (ha : acc < 256 ^ j) :
    childLength j acc bs = acc + 256 ^ j * leVal bs := by
  induction bs generalizing j acc with
  | nil => simp [childLength, leVal]
  | cons b bs ih =>
    rw [List.length_cons] at hj
    have hb := b.toNat_lt
    have hp : 256 ^ j = 2 ^ (j * 8) := by rw [Nat.mul_comm, Nat.pow_mul]
    have hle : 256 ^ (j + 1) ≤ 256 ^ 4 := Nat.pow_le_pow_right (by decide) (by omega)
    have h1 : b.toNat * 256 ^ j < 256 ^ (j + 1) := by
      rw [Nat.pow_succ, Nat.mul_comm]
      exact Nat.mul_lt_mul_of_pos_left (by omega) (Nat.pow_pos (by decide))
    have h2 : (b.toNat <<< (j * 8)) % 2 ^ 32 = b.toNat * 256 ^ j := by
      rw [Nat.shiftLeft_eq, ← hp]
      exact Nat.mod_eq_of_lt (by omega)
    have h3 : acc ||| b.toNat * 256 ^ j = acc + b.toNat * 256 ^ j := by
      have := Nat.shiftLeft_add_eq_or_of_lt (i := j * 8) (b := acc) (by omega) b.toNat
      rw [Nat.shiftLeft_eq, ← hp] at this
      rw [Nat.or_comm, ← this, Nat.add_comm]
    have h4 : b.toNat * 256 ^ j ≤ 255 * 256 ^ j := Nat.mul_le_mul_right _ (by omega)
    rw [childLength, h2, h3, ih _ _ (by omega) (by rw [Nat.pow_succ]; omega), leVal, Nat.pow_succ,
      Nat.mul_add, Nat.add_assoc, Nat.mul_assoc, Nat.mul_comm b.toNat]

/-- The fields of an index. -/
def fieldsOf (fs : Nat) : Nat → Bytes → List Bytes
  | 0, _ => []
  | n + 1, bs => bs.take fs :: fieldsOf fs n (bs.drop fs)

theorem fieldsOf_length (fs n : Nat) (bs : Bytes) : (fieldsOf fs n bs).length = n := by
  induction n generalizing bs with
  | zero => rfl
  | succ n ih => simp [fieldsOf, ih]

theorem fieldsOf_mem {fs n : Nat} {bs : Bytes} (h : fs * n ≤ bs.length) :
    ∀ f ∈ fieldsOf fs n bs, f.length = fs := by
  induction n generalizing bs with
  | zero => simp [fieldsOf]
  | succ n ih =>
    rw [Nat.mul_succ] at h
    intro f hf
    rw [fieldsOf, List.mem_cons] at hf
    rcases hf with rfl | hf
    · rw [List.length_take]; omega
    · exact ih (by rw [List.length_drop]; omega) f hf

theorem fieldsOf_flatten (fs n : Nat) (bs : Bytes) :
    (fieldsOf fs n bs).flatten = bs.take (fs * n) := by
  induction n generalizing bs with
  | zero => simp [fieldsOf]
  | succ n ih =>
    rw [fieldsOf, List.flatten_cons, ih, Nat.mul_succ, Nat.add_comm (fs * n), List.take_add]

theorem fieldsOf_flatten_of {fs : Nat} (fields : List Bytes) (h : ∀ f ∈ fields, f.length = fs)
    (rest : Bytes) : fieldsOf fs fields.length (fields.flatten ++ rest) = fields := by
  induction fields with
  | nil => rfl
  | cons f fields ih =>
    have hf := h f (by simp)
    rw [List.length_cons, fieldsOf, List.flatten_cons, List.append_assoc,
      ← hf, List.take_left, List.drop_left, hf, ih (fun g hg => h g (by simp [hg]))]

theorem flatten_length {fs : Nat} (fields : List Bytes) (h : ∀ f ∈ fields, f.length = fs) :
    fields.flatten.length = fs * fields.length := by
  induction fields with
  | nil => rfl
  | cons f fields ih =>
    rw [List.flatten_cons, List.length_append, h f (by simp), ih (fun g hg => h g (by simp [hg])),
      List.length_cons, Nat.mul_succ, Nat.add_comm]

theorem sfLoop_eq (length fs : Nat) (h4 : fs ≤ 4) (n off : Nat) (bs : Bytes)
    (hoff : off ≤ length) :
    sfLoop length fs n off bs =
      if off + ((fieldsOf fs n bs).map leVal).sum ≤ length then
        .index (consecutive off ((fieldsOf fs n bs).map leVal))
      else .error := by
  induction n generalizing off bs with
  | zero => simp [sfLoop, fieldsOf, consecutive, hoff]
  | succ n ih =>
    have hc : childLength 0 0 (bs.take fs) = leVal (bs.take fs) := by
      rw [childLength_eq 0 0 _ (by rw [List.length_take]; omega) (by decide)]
      simp
    rw [sfLoop, hc, fieldsOf, List.map_cons, List.sum_cons]
    by_cases h : length - off < leVal (bs.take fs)
    · rw [if_pos h, if_neg (by omega)]
    · rw [if_neg h, ih (off + leVal (bs.take fs)) _ (by omega), Nat.add_assoc]
      by_cases h2 : off + (leVal (bs.take fs) + ((fieldsOf fs n (bs.drop fs)).map leVal).sum) ≤ length
      · rw [if_pos h2, if_pos h2, consecutive]
      · rw [if_neg h2, if_neg h2]

theorem marker_facts : ∀ m : Fin 256, (m.val &&& 0xe0 = 0xc0 ↔ m.val / 32 = 6) ∧
    m.val &&& 0x7 = m.val % 8 ∧ (m.val >>> 3) &&& 0x3 = m.val / 8 % 4 := by decide +kernel

/-- The parser as one formula. -/
theorem parse_eq (frame : Bytes) :
    parseSuperframe frame =
      if frame = [] then .noIndex
      else
        let m := (frame.getLastD 0).toNat
        if m / 32 = 6 then
          let n := m % 8 + 1
          let fs := m / 8 % 4 + 1
          if frame.length < 2 + fs * n then .error
          else
            let len := frame.length - (2 + fs * n)
            let sizes := (fieldsOf fs n (frame.drop (len + 1))).map leVal
            if len ≥ 2 + fs * n ∧ (frame.drop len).headD 0 = frame.getLastD 0 ∧ sizes.sum ≤ len then
              .index (consecutive 0 sizes)
            else .error
        else .noIndex := by
  unfold parseSuperframe
  by_cases h0 : frame = []
  · subst h0; rfl
  · rw [if_neg (fun h => h0 (List.length_eq_zero_iff.mp h)), if_neg h0]
    have f1 : (frame.getLastD 0).toNat &&& 0xe0 = 0xc0 ↔ (frame.getLastD 0).toNat / 32 = 6 :=
      (marker_facts ⟨(frame.getLastD 0).toNat, UInt8.toNat_lt _⟩).1
    have f2 : (frame.getLastD 0).toNat &&& 0x7 = (frame.getLastD 0).toNat % 8 :=
      (marker_facts ⟨(frame.getLastD 0).toNat, UInt8.toNat_lt _⟩).2.1
    have f3 : ((frame.getLastD 0).toNat >>> 3) &&& 0x3 = (frame.getLastD 0).toNat / 8 % 4 :=
      (marker_facts ⟨(frame.getLastD 0).toNat, UInt8.toNat_lt _⟩).2.2
    simp only [f1, f2, f3]
    by_cases h1 : (frame.getLastD 0).toNat / 32 = 6
    · rw [if_pos h1, if_pos h1]
      generalize (frame.getLastD 0).toNat % 8 + 1 = n
      have h4 : (frame.getLastD 0).toNat / 8 % 4 + 1 ≤ 4 := by omega
      generalize (frame.getLastD 0).toNat / 8 % 4 + 1 = fs at *
      by_cases h2 : frame.length < 2 + fs * n
      · rw [if_pos h2, if_pos h2]
      · rw [if_neg h2, if_neg h2, sfLoop_eq _ _ h4 _ _ _ (Nat.zero_le _), Nat.zero_add]
        generalize frame.length - (2 + fs * n) = len
        by_cases h3 : len ≥ 2 + fs * n ∧ (frame.drop len).headD 0 = frame.getLastD 0
        · rw [if_pos h3]
          by_cases h5 : ((fieldsOf fs n (frame.drop (len + 1))).map leVal).sum ≤ len
          · rw [if_pos h5, if_pos ⟨h3.1, h3.2, h5⟩]
          · rw [if_neg h5, if_neg (fun h => h5 h.2.2)]
        · rw [if_neg h3, if_neg (fun h => h3 ⟨h.1, h.2.1⟩)]
    · rw [if_neg h1, if_neg h1]

theorem parse_of_layout {frame body : Bytes} {mag : Nat} {sizes : List Nat}
    (h : SuperframeLayout frame body mag sizes) (hb : 2 + mag * sizes.length ≤ body.length)
    (hs : sizes.sum ≤ body.length) : parseSuperframe frame = .index (consecutive 0 sizes) := by
  obtain ⟨fields, hm1, hm4, hn1, hn8, hf, hfl, he⟩ := h
  have hfn : fields.length = sizes.length := by rw [← hf, List.length_map]
  simp only at he
  generalize hmk : UInt8.ofNat (0xc0 + 8 * (mag - 1) + (sizes.length - 1)) = marker at he
  have hmt : marker.toNat = 0xc0 + 8 * (mag - 1) + (sizes.length - 1) := by
    rw [← hmk]; simp; omega
  have hlast : frame.getLastD 0 = marker := by
    rw [he, List.getLastD_concat]
  have hlen : frame.length = body.length + (2 + mag * sizes.length) := by
    rw [he]
    simp only [List.length_append, List.length_cons, List.length_nil, flatten_length fields hfl, hfn]
    omega
  have hne : frame ≠ [] := by rw [he]; simp
  rw [parse_eq, if_neg hne]
  simp only
  rw [hlast, hmt, if_pos (by omega)]
  have e1 : (0xc0 + 8 * (mag - 1) + (sizes.length - 1)) % 8 + 1 = sizes.length := by omega
  have e2 : (0xc0 + 8 * (mag - 1) + (sizes.length - 1)) / 8 % 4 + 1 = mag := by omega
  rw [e1, e2, if_neg (by omega), hlen, Nat.add_sub_cancel]
  have e3 : frame.drop (body.length + 1) = fields.flatten ++ [marker] := by
    rw [he, List.append_assoc, ← List.drop_drop, List.append_assoc, List.drop_left]
    rfl
  have e4 : (frame.drop body.length).headD 0 = marker := by
    rw [he, List.append_assoc, List.append_assoc, List.drop_left]
    rfl
  rw [e3, e4, ← hfn, fieldsOf_flatten_of fields hfl, hf, if_pos ⟨by rw [hfn]; omega, rfl, hs⟩]

theorem layout_of_parse {frame : Bytes} {rs : List Range} (h : parseSuperframe frame = .index rs) :
    ∃ body mag sizes, SuperframeLayout frame body mag sizes ∧
      2 + mag * sizes.length ≤ body.length ∧ sizes.sum ≤ body.length ∧ rs = consecutive 0 sizes := by
  rw [parse_eq] at h
  split at h
  · cases h
  rename_i hne
  simp only at h
  split at h
  · rename_i h1
    generalize hn : (frame.getLastD 0).toNat % 8 + 1 = n at h
    generalize hfs : (frame.getLastD 0).toNat / 8 % 4 + 1 = fs at h
    split at h
    · cases h
    rename_i h2
    generalize hlen : frame.length - (2 + fs * n) = len at h
    split at h
    · rename_i h3
      cases h
      have hd : frame.drop len = frame.getLastD 0 :: (frame.drop (len + 1)) := by
        rw [List.drop_eq_getElem_cons (by omega)] at h3 ⊢
        rw [List.headD_cons] at h3
        rw [h3.2.1]
      have hdl : (frame.drop (len + 1)).length = fs * n + 1 := by
        rw [List.length_drop]; omega
      have hsplit : frame.drop (len + 1) = (fieldsOf fs n (frame.drop (len + 1))).flatten ++
          [frame.getLastD 0] := by
        rw [fieldsOf_flatten]
        conv => lhs; rw [← List.take_append_drop (fs * n) (frame.drop (len + 1))]
        congr 1
        have hl1 : ((frame.drop (len + 1)).drop (fs * n)).length = 1 := by
          rw [List.length_drop]; omega
        obtain ⟨z, hz⟩ := List.length_eq_one_iff.mp hl1
        rw [hz]
        have : frame.getLastD 0 = z := by
          have h5 : frame = frame.take (len + 1 + fs * n) ++ [z] := by
            rw [← hz, List.drop_drop, List.take_append_drop]
          rw [h5]; simp
        rw [this]
      refine ⟨frame.take len, fs, _, ⟨fieldsOf fs n (frame.drop (len + 1)), by omega, by omega, ?_, ?_,
        rfl, fieldsOf_mem (by omega), ?_⟩, ?_, ?_, rfl⟩
      · rw [List.length_map, fieldsOf_length]; omega
      · rw [List.length_map, fieldsOf_length]; omega
      · simp only [List.length_map, fieldsOf_length]
        have hmk : UInt8.ofNat (0xc0 + 8 * (fs - 1) + (n - 1)) = frame.getLastD 0 := by
          apply UInt8.toNat_inj.mp
          have := UInt8.toNat_lt (frame.getLastD 0)
          simp only [UInt8.toNat_ofNat']
          omega
        rw [hmk, List.append_assoc, List.append_assoc, ← hsplit, List.singleton_append, ← hd,
          List.take_append_drop]
      · rw [List.length_map, fieldsOf_length, List.length_take]; omega
      · rw [List.length_take]; omega
    · cases h
  · cases h

end Verif.Vp9

namespace Verif.Ts
open Verif.Spec

theorem tsHeader_eq : ∀ (s a : Bool) (c : Fin 16), tsHeader s a c.val =
    [0x47, if s then 0x40 else 0, 0x20, UInt8.ofNat ((if a then 0x30 else 0x10) + c.val)] := by
  decide +kernel

theorem flag_bytes : ∀ (s a : Bool) (c : Fin 16),
    let b1 : UInt8 := if s then 0x40 else 0
    let b3 : UInt8 := UInt8.ofNat ((if a then 0x30 else 0x10) + c.val)
    (b1.toNat / 128 = 0 ∧ b3.toNat / 64 = 0 ∧ b3.toNat / 16 % 2 = 1) ∧
    (b1.toNat / 64 % 2 = 1 ↔ s = true) ∧ b1.toNat % 32 = 0 ∧ b3.toNat % 16 = c.val ∧
    (b3.toNat / 32 % 2 = 1 ↔ a = true) := by decide +kernel

theorem tsView_plain (b1 b3 : UInt8) (body : Bytes) (hl : body.length = 184)
    (hf : b1.toNat / 128 = 0 ∧ b3.toNat / 64 = 0 ∧ b3.toNat / 16 % 2 = 1)
    (ha : ¬ b3.toNat / 32 % 2 = 1) :
    tsView (0x47 :: b1 :: 0x20 :: b3 :: body) =
      some { start := b1.toNat / 64 % 2 = 1, pid := b1.toNat % 32 * 256 + 0x20,
             counter := b3.toNat % 16, payload := body } := by
  unfold tsView
  simp only
  rw [if_pos ⟨by simp [hl], trivial, hf⟩, if_neg ha]
  rfl

theorem tsView_adapt (b1 b3 n : UInt8) (body : Bytes) (hl : body.length = 183)
    (hf : b1.toNat / 128 = 0 ∧ b3.toNat / 64 = 0 ∧ b3.toNat / 16 % 2 = 1)
    (ha : b3.toNat / 32 % 2 = 1) (hn : n.toNat ≤ body.length) :
    tsView (0x47 :: b1 :: 0x20 :: b3 :: n :: body) =
      some { start := b1.toNat / 64 % 2 = 1, pid := b1.toNat % 32 * 256 + 0x20,
             counter := b3.toNat % 16, payload := body.drop n.toNat } := by
  unfold tsView
  simp only
  rw [if_pos ⟨by simp [hl], trivial, hf⟩, if_pos ha, if_pos hn]
  rfl

theorem tsPacket_view {total left c : Nat} {rest : Bytes} (hl : rest.length = left)
    (h0 : 0 < left) (hc : c < 16) :
    ∃ pkt n, tsPacket total left c rest = (pkt, n) ∧ pkt.length = 188 ∧ 1 ≤ n ∧ n ≤ left ∧
      tsView pkt = some { start := left = total, pid := 0x20, counter := c,
                          payload := rest.take n } := by
  have hh := fun s a => tsHeader_eq s a ⟨c, hc⟩
  have fb := fun s a => flag_bytes s a ⟨c, hc⟩
  simp only at hh fb
  unfold tsPacket
  simp only
  by_cases hfull : left ≥ 184
  · have hm : min left 184 = 184 := by omega
    rw [hm, if_neg (by omega)]
    refine ⟨_, _, rfl, ?_, by omega, by omega, ?_⟩
    · rw [hh]; simp; omega
    · rw [hh]
      obtain ⟨f1, f2, f3, f4, f5⟩ := fb (left = total) (decide (184 ≠ 184))
      generalize (if decide (left = total) = true then (0x40 : UInt8) else 0) = b1 at *
      generalize UInt8.ofNat ((if decide (184 ≠ 184) = true then 0x30 else 0x10) + c) = b3 at *
      have hlen : (rest.take 184).length = 184 := by rw [List.length_take]; omega
      have := tsView_plain b1 b3 (rest.take 184) hlen f1 (by rw [f5]; simp)
      rw [show [(0x47 : UInt8), b1, 0x20, b3] ++ rest.take 184 = 0x47 :: b1 :: 0x20 :: b3 :: rest.take 184
        from rfl, this]
      simp only [f2, f3, f4]
      simp
  · have hm : min left 184 = left := by omega
    rw [hm, if_pos (by omega)]
    generalize hn : (if left = 184 - 1 then left - 1 else left) = n
    have hn1 : 1 ≤ n ∧ n ≤ left ∧ n ≤ 182 := by split at hn <;> omega
    refine ⟨_, _, rfl, ?_, by omega, by omega, ?_⟩
    · rw [hh]; simp; omega
    · rw [hh]
      obtain ⟨f1, f2, f3, f4, f5⟩ := fb (left = total) (decide (left ≠ 184))
      generalize (if decide (left = total) = true then (0x40 : UInt8) else 0) = b1 at *
      generalize UInt8.ofNat ((if decide (left ≠ 184) = true then 0x30 else 0x10) + c) = b3 at *
      have hla : left ≠ 184 := by omega
      have hpad : (UInt8.ofNat (184 - n - 1 - 1 + 1)).toNat = 183 - n := by
        simp; omega
      have hdrop : (0 :: (List.replicate (184 - n - 1 - 1) 0xff ++ rest.take n)).drop (183 - n) =
          rest.take n := by
        rw [show 183 - n = (184 - n - 1 - 1) + 1 by omega, List.drop_succ_cons]
        exact List.drop_left' (by simp)
      have := tsView_adapt b1 b3 (UInt8.ofNat (184 - n - 1 - 1 + 1))
        (0 :: (List.replicate (184 - n - 1 - 1) 0xff ++ rest.take n)) (by simp; omega) f1
        (by rw [f5]; simp [hla]) (by rw [hpad]; simp; omega)
      rw [hpad, hdrop] at this
      rw [show [(0x47 : UInt8), b1, 0x20, b3] ++ [UInt8.ofNat (184 - n - 1 - 1 + 1), 0] ++
        List.replicate (184 - n - 1 - 1) 0xff ++ rest.take n = 0x47 :: b1 :: 0x20 :: b3 ::
          UInt8.ofNat (184 - n - 1 - 1 + 1) :: 0 :: (List.replicate (184 - n - 1 - 1) 0xff ++ rest.take n)
        from by simp, this]
      simp only [f2, f3, f4]
      simp

/-- The packets of `rest`, as seen by a receiver. -/
structure Seen (total left c : Nat) (rest : Bytes) (pkts : List Bytes) (vs : List TsView) : Prop where
  views : pkts.map tsView = vs.map some
  payloads : (vs.map TsView.payload).flatten = rest
  pids : ∀ v ∈ vs, v.pid = 0x20
  counters : vs.map TsView.counter = (List.range vs.length).map (fun i => (c + i) % 16)
  starts : ∀ i v, vs[i]? = some v → v.start = decide (i = 0 ∧ left = total)

theorem receiveLoop_seen (writes : Nat → Bool) (total : Nat) :
    ∀ (fuel k left c : Nat) (rest : Bytes), rest.length = left → left < fuel → c ≤ 16 →
      left ≤ total →
    ∃ pkts vs, Seen total left c rest pkts vs ∧
      (receiveLoop writes total fuel k left c rest).2 <+: pkts ∧
      ((receiveLoop writes total fuel k left c rest).1 = true ↔
        ∀ i, i < pkts.length → writes (k + i) = true) ∧
      ((receiveLoop writes total fuel k left c rest).1 = true →
        (receiveLoop writes total fuel k left c rest).2 = pkts) := by
  intro fuel
  induction fuel with
  | zero => intros; omega
  | succ fuel ih =>
    intro k left c rest hl hf hc ht
    rw [receiveLoop]
    by_cases h0 : left = 0
    · subst h0
      have : rest = [] := List.length_eq_zero_iff.mp hl
      subst this
      refine ⟨[], [], ⟨rfl, rfl, by simp, rfl, by simp⟩, ?_⟩
      simp
    · rw [if_neg h0]
      simp only
      generalize hcc : (if c > 0xf then 0 else c) = c'
      have hc' : c' < 16 ∧ c' % 16 = c % 16 := by split at hcc <;> omega
      obtain ⟨pkt, n, e1, e2, e3, e4, e5⟩ := tsPacket_view (total := total) hl (by omega) hc'.1
      rw [e1]
      simp only
      rw [if_neg (by omega), Nat.mod_eq_of_lt (show c' + 1 < 256 by omega)]
      obtain ⟨pkts, vs, s, g1, g2, g3⟩ := ih (k + 1) (left - n) (c' + 1) (rest.drop n)
        (by rw [List.length_drop, hl]) (by omega) (by omega) (by omega)
      refine ⟨pkt :: pkts, TsView.mk (left = total) 0x20 c' (rest.take n) :: vs,
        ⟨?_, ?_, ?_, ?_, ?_⟩, ?_⟩
      · rw [List.map_cons, List.map_cons, e5, s.views]
      · rw [List.map_cons, List.flatten_cons, s.payloads, List.take_append_drop]
      · intro v hv
        rcases List.mem_cons.mp hv with rfl | hv
        · rfl
        · exact s.pids v hv
      · rw [List.map_cons, s.counters, List.length_cons, List.range_succ_eq_map, List.map_cons,
          List.map_map]
        refine congr (congrArg _ ?_) ?_
        · simp only; omega
        · apply List.map_congr_left
          intro i _
          simp only [Function.comp]
          omega
      · intro i v hv
        cases i with
        | zero =>
          simp only [List.getElem?_cons_zero, Option.some.injEq] at hv
          rw [← hv]; simp
        | succ i =>
          rw [List.getElem?_cons_succ] at hv
          have := s.starts i v hv
          rw [this]
          simp
          omega
      · by_cases hw : writes k = true
        · rw [if_pos hw]
          generalize hr : receiveLoop writes total fuel (k + 1) (left - n) (c' + 1) (rest.drop n) = r at *
          obtain ⟨b, out⟩ := r
          simp only at g1 g2 g3 ⊢
          refine ⟨List.cons_prefix_cons.mpr ⟨rfl, g1⟩, ?_, fun hb => by rw [g3 hb]⟩
          rw [g2]
          constructor
          · intro hall i hi
            cases i with
            | zero => exact hw
            | succ i =>
              rw [show k + (i + 1) = k + 1 + i by omega]
              exact hall i (by simpa using hi)
          · intro hall i hi
            rw [show k + 1 + i = k + (i + 1) by omega]
            exact hall (i + 1) (by simpa using hi)
        · rw [if_neg hw]
          refine ⟨List.nil_prefix, ?_, fun h => nomatch h⟩
          constructor
          · intro h; cases h
          · intro hall
            exact absurd (hall 0 (by simp)) hw

end Verif.Ts

/-
Whole elements: written bytes and how both parsers read them.
-/
import Verif.Lemmas.Void

namespace Verif
open Spec Mux Par Web

theorem isId_width {n id : Nat} (h : IsId n id) : getUIntSize id = n ∧ id < 2 ^ 64 := by
  obtain ⟨h1, h4, hlo, hhi⟩ := h
  have hn : n = 1 ∨ n = 2 ∨ n = 3 ∨ n = 4 := by omega
  rcases hn with rfl | rfl | rfl | rfl <;> simp only [Nat.reduceMul, Nat.reduceAdd, Nat.reducePow] at hlo hhi <;>
    (refine ⟨?_, by omega⟩; unfold getUIntSize; repeat' split) <;> omega

theorem beVal_uint {v : Nat} (hv : v < 2 ^ 64) : beVal (beBytes (getUIntSize v) v) = v := by
  rw [beVal_beBytes, Nat.mod_eq_of_lt (getUIntSize_fits hv)]

/-- An element somewhere in a file: how mkvparser sees it. -/
theorem parseElementHeader_element {n id : Nat} (hid : IsId n id) {r : Rdr} {pre payload post : Bytes}
    (hr : r.data = pre ++ (element id payload ++ post)) (hsz : payload.length + 1 < 2 ^ 56)
    {stop : Int} (hstop : stop < 0 ∨ (pre.length + (element id payload).length : Nat) ≤ stop)
    (hmax : (pre.length + (element id payload).length) ≤ llongMax) :
    parseElementHeader r pre.length stop =
      .ok ⟨pre.length + n + sizeWidth payload.length, id, payload.length⟩ ∧
    pre.length + n + sizeWidth payload.length + payload.length =
      pre.length + (element id payload).length ∧
    slice r.data (pre.length + n + sizeWidth payload.length) payload.length = payload := by
  obtain ⟨hw, h64⟩ := isId_width hid
  have hbw : byteWidth id = n := by rw [byteWidth_eq h64, hw]
  have hb := getCodedUIntSize_bounds payload.length
  have hf := getCodedUIntSize_fits hsz
  rw [getCodedUIntSize_eq] at hb hf
  have hel : element id payload = beBytes n id ++ (vint (sizeWidth payload.length) payload.length ++ payload) := by
    unfold element; rw [hbw, List.append_assoc]
  have hlen : (element id payload).length = n + (sizeWidth payload.length + payload.length) := by
    rw [hel]; simp [vint_length]
  have hid1 := hid.1
  generalize hm : sizeWidth payload.length = m at *
  have s1 : slice r.data pre.length n = beBytes n id := by
    have := slice_of_append (pre := pre) (mid := beBytes n id)
      (post := vint m payload.length ++ payload ++ post) (d := r.data)
      (by rw [hr, hel]; simp)
    rwa [beBytes_length] at this
  have s2 : slice r.data (pre.length + n) m = vint m payload.length := by
    have := slice_of_append (pre := pre ++ beBytes n id) (mid := vint m payload.length)
      (post := payload ++ post) (d := r.data) (by rw [hr, hel]; simp)
    rwa [vint_length, List.length_append, beBytes_length] at this
  have s3 : slice r.data (pre.length + n + m) payload.length = payload := by
    have := slice_of_append (pre := pre ++ (beBytes n id ++ vint m payload.length)) (mid := payload)
      (post := post) (d := r.data) (by rw [hr, hel]; simp)
    rwa [List.length_append, List.length_append, beBytes_length, vint_length, ← Nat.add_assoc] at this
  refine ⟨?_, by omega, s3⟩
  have q1 : ¬ (stop ≥ 0 ∧ (pre.length : Int) ≥ stop) := by omega
  have q2 : ¬ (stop ≥ 0 ∧ (pre.length : Int) + n ≥ stop) := by omega
  have q3 : ¬ ((pre.length : Int) + n + m > (llongMax : Int)) := by omega
  have q4 : ¬ (stop ≥ 0 ∧ (pre.length : Int) + n + m > stop) := by omega
  unfold parseElementHeader
  rw [if_neg q1, readID_of_slice hid s1]
  simp only
  rw [if_neg q2, show (pre.length : Int) + (n : Int) = ((pre.length + n : Nat) : Int) by omega,
    readUInt_of_slice hb.1 hb.2 (by omega) s2]
  simp only
  rw [if_neg (by omega), if_neg (by omega)]
  simp only [Res.ok.injEq, Hdr.mk.injEq, and_true]
  omega

/-- An element somewhere in a stream: how the incremental parsers see it. -/
theorem incElement_element {n id : Nat} (hid : IsId n id) {payload post : Bytes} {pos : Nat}
    (hsz : payload.length + 1 < 2 ^ 56) {σ} {init : Nat → Except Status σ} {feed : σ → Src → Fed σ}
    {p p' : σ} {k : Nat} (hinit : init payload.length = .ok p)
    (hfeed : ∀ q, feed p (allAtOnce (payload ++ post) q) =
      (.okCompleted, p', allAtOnce post (q + payload.length), k)) :
    incElement init feed (allAtOnce (element id payload ++ post) pos) =
      some (id, p', allAtOnce post (pos + (element id payload).length)) := by
  obtain ⟨hw, h64⟩ := isId_width hid
  have hbw : byteWidth id = n := by rw [byteWidth_eq h64, hw]
  have hb := getCodedUIntSize_bounds payload.length
  have hf := getCodedUIntSize_fits hsz
  rw [getCodedUIntSize_eq] at hb hf
  have hel : element id payload ++ post =
      beBytes n id ++ (vint (sizeWidth payload.length) payload.length ++ (payload ++ post)) := by
    unfold element; rw [hbw, List.append_assoc, List.append_assoc]
  have hlen : (element id payload).length = n + (sizeWidth payload.length + payload.length) := by
    unfold element; rw [hbw]; simp [vint_length]
  obtain ⟨z, hz, hzs⟩ := SizeP.feed_vint (pos := pos + n) (post := payload ++ post) hb.1 hb.2 hf
  unfold incElement
  rw [hel, IdP.feed_id hid]
  simp only
  rw [hz]
  simp only [hzs, hinit, hfeed]
  rw [hlen, Nat.add_assoc, Nat.add_assoc]

end Verif

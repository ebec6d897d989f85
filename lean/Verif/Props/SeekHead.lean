/-
C24: the seek head fits the space reserved for it, and reads back.
-/
import Verif.Lemmas.SeekHead

namespace Verif.Props
open Verif Spec Mux Par

/-- Recording entries one after the other; `none` as soon as one is refused. -/
def recordAll (h : SeekHead) : List (Nat × Nat) → Option SeekHead
  | [] => some h
  | e :: es =>
    match h.addSeekEntry e.1 e.2 with
    | none => none
    | some h' => recordAll h' es

theorem place_used {id pos : Nat} (_h0 : id ≠ 0) : ∀ (used : List (Nat × Nat)) (k : Nat)
    (_ : ∀ e ∈ used, e.1 ≠ 0),
    SeekHead.place id pos (used ++ List.replicate k (0, 0)) =
      if k = 0 then none else some (used ++ (id, pos) :: List.replicate (k - 1) (0, 0)) := by
  intro used
  induction used with
  | nil =>
    intro k _
    cases k with
    | zero => rfl
    | succ k => simp [List.replicate_succ, SeekHead.place]
  | cons e es ih =>
    intro k h
    rw [List.cons_append, SeekHead.place, if_neg (h e (by simp)), ih k (fun x hx => h x (by simp [hx]))]
    by_cases hk : k = 0 <;> simp [hk]

theorem recordAll_eq (start : Nat) : ∀ (es used : List (Nat × Nat)) (k : Nat)
    (_ : ∀ e ∈ used, e.1 ≠ 0) (_ : ∀ e ∈ es, e.1 ≠ 0),
    recordAll ⟨used ++ List.replicate k (0, 0), start⟩ es =
      if es.length ≤ k then some ⟨used ++ es ++ List.replicate (k - es.length) (0, 0), start⟩
      else none := by
  intro es
  induction es with
  | nil => intro used k _ _; simp [recordAll]
  | cons e es ih =>
    intro used k h1 h2
    unfold recordAll SeekHead.addSeekEntry
    rw [place_used (h2 e (by simp)) used k h1]
    by_cases hk : k = 0
    · simp [hk]
    · rw [if_neg hk]
      simp only [Option.map_some]
      have := ih (used ++ [e]) (k - 1) (fun x hx => by
        rcases List.mem_append.mp hx with h | h
        · exact h1 x h
        · simp only [List.mem_singleton] at h; exact h ▸ h2 e (by simp)) (fun x hx => h2 x (by simp [hx]))
      rw [List.append_assoc, List.singleton_append] at this
      rw [this]
      by_cases hl : es.length ≤ k - 1
      · rw [if_pos hl, if_pos (by rw [List.length_cons]; omega)]
        simp [show k - 1 - es.length = k - (es.length + 1) by omega]
      · rw [if_neg hl, if_neg (by rw [List.length_cons]; omega)]

theorem used_of {es : List (Nat × Nat)} (h : ∀ e ∈ es, e.1 ≠ 0) (k : Nat) :
    SeekHead.used (es ++ List.replicate k (0, 0)) = es := by
  unfold SeekHead.used
  rw [List.filter_append, List.filter_eq_self.mpr (fun e he => by simp [h e he])]
  simp

/-- C24: a new seek head takes up to five entries and refuses a sixth. -/
theorem C24_capacity (es : List (Nat × Nat)) (h : ∀ e ∈ es, e.1 ≠ 0) :
    (recordAll {} es).isSome = true ↔ es.length ≤ 5 := by
  have := recordAll_eq 0 es [] 5 (by simp) h
  rw [show ({} : SeekHead) = ⟨[] ++ List.replicate 5 (0, 0), 0⟩ from rfl, this]
  by_cases hl : es.length ≤ 5 <;> simp [hl]

/-- C24, reservation: when the header is written, 110 bytes are set aside at the end of the file,
as one Void element, and their place is remembered; entries are untouched.  A failing output is
reported. -/
theorem C24_reserve (h : SeekHead) {s : Sink} (hs : s.pos = s.data.length) :
    (∃ s' e, SeekHead.write h s = (.ok (), { h with startPos := s.data.length }, s') ∧
      s'.data = s.data ++ element 0xEC (List.replicate e 0) ∧
      s'.data.length = s.data.length + 110 ∧ s'.pos = s'.data.length) ∨
    (∃ c h' s', SeekHead.write h s = (.err c, h', s') ∧ ∃ i, s.calls ≤ i ∧ i < s'.calls ∧ s.plan i ≠ none) := by
  obtain ⟨e, hlen, he⟩ := writeVoid_small (n := 110) (by omega) (by omega)
  have hp : Sink.position s = (.ok s.pos, s) := rfl
  unfold SeekHead.write
  rw [M.bind_of_ok (M.lift_of hp), M.modify_bind, totalSize_eq]
  rcases he.cases hs with ⟨s', h1, n1⟩ | ⟨c, s', h1, b1⟩
  · rw [M.bind_of_ok (M.lift_of h1), if_neg (by omega)]
    have hd := n1.data
    refine .inl ⟨s', e, by rw [hs]; rfl, hd, ?_, n1.atEnd hs⟩
    rw [hd, List.length_append, hlen]
  · rw [M.bind_of_err (M.lift_of h1)]
    exact .inr ⟨c, _, s', rfl, b1.cause⟩

/-- What "recorded" entries must look like: IDs of Matroska elements, file positions (below
`2^56`, the largest size an EBML element can have). -/
def Recordable (e : Nat × Nat) : Prop := (∃ n, IsId n e.1) ∧ e.2 < 2 ^ 56

theorem recordable_range {e : Nat × Nat} (h : Recordable e) : e.1 ≠ 0 ∧ e.1 < 2 ^ 32 := by
  obtain ⟨⟨n, hid⟩, -⟩ := h
  have h5 := hid.2.2.2
  have h6 := hid.2.2.1
  have h4 := hid.2.1
  have : 2 ^ (7 * n + 1) ≤ 2 ^ 29 := Nat.pow_le_pow_right (by decide) (by omega)
  have : 0 < 2 ^ (7 * n) := Nat.pow_pos (by omega)
  omega

theorem entries_short {es : List (Nat × Nat)} (h : ∀ e ∈ es, Recordable e) :
    (seekEntries es).length ≤ 20 * es.length := by
  induction es with
  | nil => simp [seekEntries]
  | cons e es ih =>
    have i := ih (fun x hx => h x (by simp [hx]))
    have h1 := h e (by simp)
    have h2 := recordable_range h1
    obtain ⟨l1, -, -⟩ := seekEntry_len (e := e) h2.2 (by have := h1.2; omega)
    have := getUIntSize_le4 h2.2
    have := getUIntSize_le7 h1.2
    rw [seekEntries, List.length_append, List.length_cons]
    omega

private theorem report_pairs (es : List (Nat × Nat)) : ∀ pos,
    (seekReport pos es).map (fun x => (x.id, x.pos)) = es.map fun e => (e.1, (e.2 : Int)) := by
  induction es with
  | nil => intro; rfl
  | cons e es ih => intro pos; simp [seekReport, ih]

/-- C24.  Up to five entries have been recorded; the file contains the 110 reserved bytes (whatever
they hold) at the remembered place.  Finalising the seek head on a seekable output either reports
success, or some output call failed.  On success the reserved bytes hold exactly a SeekHead element
with the recorded entries in order and a Void element, nothing else of the file has changed and the
write position is as before; and mkvparser reads from that place a seek head with exactly the
recorded (ID, position) pairs.  On failure nothing outside the reserved bytes has changed.

Partial: positions must be below `2^56`; see `C24_full_head_overruns`. -/
theorem C24_seek_head_fits_partial {es : List (Nat × Nat)} {h0 h : SeekHead}
    (hrec : recordAll {} es = some h0) (hes : ∀ e ∈ es, Recordable e) (hne : es ≠ [])
    {s : Sink} {pre gap post : Bytes} (hd : s.data = pre ++ (gap ++ post)) (hg : gap.length = 110)
    (hh : h = { h0 with startPos := pre.length }) (hmax : s.data.length ≤ llongMax) :
    (∃ s' e, h.finalize true s = (.ok (), s') ∧ s'.pos = s.pos ∧
      s'.data = pre ++ ((element 0x114D9B74 (seekEntries es) ++
        element 0xEC (List.replicate e 0)) ++ post) ∧
      s'.data.length = s.data.length ∧
      ∀ r : Rdr, r.data = s'.data → ∃ hd ents voids,
        parseElementHeader r pre.length s'.data.length = .ok hd ∧ hd.id = 0x114D9B74 ∧
        hd.pos + hd.size = pre.length + (element 0x114D9B74 (seekEntries es)).length ∧
        seekHeadParse r hd.pos hd.size = .ok (ents, voids) ∧
        ents.map (fun x => (x.id, x.pos)) = es.map fun e => (e.1, (e.2 : Int))) ∨
    (∃ c s' gap', h.finalize true s = (.err c, s') ∧
      (∃ i, s.calls ≤ i ∧ i < s'.calls ∧ s.plan i ≠ none) ∧
      gap'.length = 110 ∧ s'.data = pre ++ (gap' ++ post)) := by
  have hnz : ∀ e ∈ es, e.1 ≠ 0 := fun e he => (recordable_range (hes e he)).1
  have hall := recordAll_eq 0 es [] 5 (by simp) hnz
  rw [show ({} : SeekHead) = ⟨[] ++ List.replicate 5 (0, 0), 0⟩ from rfl, hall] at hrec
  by_cases hl : es.length ≤ 5
  rotate_left
  · rw [if_neg hl] at hrec; cases hrec
  rw [if_pos hl, List.nil_append] at hrec
  cases hrec
  have hu := used_of hnz (5 - es.length)
  have hhe : h.entries = es ++ List.replicate (5 - es.length) (0, 0) := by rw [hh]
  have hr : SeekHead.InRange h.entries := by
    intro e he
    rw [hhe] at he
    rcases List.mem_append.mp he with he | he
    · exact ⟨(recordable_range (hes e he)).2, by have := (hes e he).2; omega⟩
    · have := (List.mem_replicate.mp he).2; subst this; simp
  rw [← hhe] at hu
  have hshort := entries_short hes
  have hpay : SeekHead.payloadSize h.entries ≠ 0 := by
    rw [← (seekEntries_len hr).1, hu]
    cases es with
    | nil => exact absurd rfl hne
    | cons e es =>
      rw [seekEntries, List.length_append]
      have := recordable_range (hes e (by simp))
      obtain ⟨l1, -, -⟩ := seekEntry_len (e := e) this.2 (by have := (hes e (by simp)).2; omega)
      omega
  unfold SeekHead.finalize
  rw [if_neg (by simp), if_neg hpay]
  rcases rewrite_spec hr (by rw [hu]; exact hl) hd hg (by rw [hh]) (by rw [hu]; omega) with
    ⟨s', e, r1, -, r3, r4, r5⟩ | ⟨c, s', gap', r1, r2, r3, r4⟩
  · rw [hu] at r4 r5
    have hlen : s'.data.length = s.data.length := by
      rw [List.length_append] at r4
      rw [r5, hd]
      simp only [List.length_append]
      omega
    refine .inl ⟨s', e, r1, r3, r5, hlen, fun r hrd => ?_⟩
    obtain ⟨hsh, -, -, -, -⟩ := seek_ids
    have hsm : (seekEntries es).length + 1 < 2 ^ 56 := by omega
    have hat : At r.data pre.length (element kMkvSeekHead (seekEntries es)) :=
      At.of_eq (post := element 0xEC (List.replicate e 0) ++ post)
        (by rw [hrd, r5, List.append_assoc]; rfl)
    have hle := hat.le (element_ne_nil _ _)
    rw [hrd] at hle
    refine ⟨_, _, _, parseElementHeader_at hsh hat hsm hle (by omega), rfl, ?_,
      seekHeadParse_at (fun e he => ⟨(hes e he).1, by have := (hes e he).2; omega⟩) (by omega)
        (at_payload hsh hat) ?_, report_pairs _ _⟩
    · simp only
      have := element_length_id hsh (seekEntries es)
      show _ = pre.length + (element kMkvSeekHead (seekEntries es)).length
      omega
    · have := element_length_id hsh (seekEntries es)
      show pre.length + 4 + _ + _ ≤ _
      omega
  · exact .inr ⟨c, s', gap', r1, r2.2, r3, r4⟩

private theorem taken {α β : Type} {x : Res α} {k : α → Res (Option β)} {b : β} (h : orFalse x k = .ok (some b)) :
    ∃ a, x = .ok a ∧ k a = .ok (some b) := by
  cases x with
  | ok a => exact ⟨a, rfl, h⟩
  | err c => cases h
  | ub => cases h

private theorem passed {α : Type} {p : Prop} [Decidable p] {x : Res (Option α)} {b : α}
    (h : (if p then .ok none else x) = .ok (some b)) : ¬ p ∧ x = .ok (some b) := by
  split at h
  · cases h
  · exact ⟨‹_›, h⟩

/-- C24, any file: mkvparser takes an entry only if the payload of the Seek element is exactly a SeekID element, which
holds exactly one ID, and a SeekPosition element with a number that is not negative. -/
theorem C24_entry_exact {r : Rdr} {start size id : Nat} {pos : Int} (h : seekParseEntry r start size = .ok (some (id, pos))) :
    ∃ l1 l2 n l3 l4 m : Nat, readID r start = .ok (0x53AB, l1) ∧ readUInt r (start + l1 : Nat) = .ok (n, l2) ∧
      readID r (start + l1 + l2 : Nat) = .ok (id, n) ∧ readID r (start + l1 + l2 + n : Nat) = .ok (0x53AC, l3) ∧
      readUInt r (start + l1 + l2 + n + l3 : Nat) = .ok (m, l4) ∧
      unserializeUInt r (start + l1 + l2 + n + l3 + l4 : Nat) m = .ok pos ∧ 0 ≤ pos ∧
      l1 + l2 + n + l3 + l4 + m = size := by
  unfold seekParseEntry at h
  obtain ⟨-, h⟩ := passed h
  obtain ⟨⟨i1, l1⟩, e1, h⟩ := taken h
  obtain ⟨c1, h⟩ := passed h
  obtain ⟨-, h⟩ := passed h
  obtain ⟨⟨n, l2⟩, e2, h⟩ := taken h
  obtain ⟨-, h⟩ := passed h
  obtain ⟨-, h⟩ := passed h
  obtain ⟨-, h⟩ := passed h
  obtain ⟨⟨i2, l⟩, e3, h⟩ := taken h
  obtain ⟨-, h⟩ := passed h
  obtain ⟨c2, h⟩ := passed h
  obtain ⟨⟨i3, l3⟩, e4, h⟩ := taken h
  obtain ⟨c3, h⟩ := passed h
  obtain ⟨-, h⟩ := passed h
  obtain ⟨⟨m, l4⟩, e5, h⟩ := taken h
  obtain ⟨-, h⟩ := passed h
  obtain ⟨-, h⟩ := passed h
  obtain ⟨-, h⟩ := passed h
  obtain ⟨v, e6, h⟩ := taken h
  obtain ⟨c4, h⟩ := passed h
  obtain ⟨c5, h⟩ := passed h
  cases h
  simp only [ne_eq, Decidable.not_not] at c1 c2 c3 c5
  subst c1 c2 c3
  exact ⟨l1, l2, l, l3, l4, m, e1, e2, e3, e4, e5, e6, by omega, by omega⟩

example : seekParseEntry { data := [0x53, 0xAB, 0x84, 0x15, 0x49, 0xA9, 0x66, 0x53, 0xAC, 0x81, 0x28] } 0 11 =
      .ok (some (0x1549A966, 0x28)) ∧
    seekParseEntry { data := [0x53, 0xAB, 0x85, 0x15, 0x49, 0xA9, 0x66, 0, 0x53, 0xAC, 0x81, 0x28] } 0 12 = .ok none := by
  decide +kernel

/-- C24: on an output that cannot seek, nothing is written. -/
theorem C24_not_seekable (h : SeekHead) (s : Sink) : h.finalize false s = (.ok (), s) := rfl

/-- Five entries with the largest positions. -/
def fullHead : List (Nat × Nat) :=
  [(0x1549A966, 2 ^ 64 - 1), (0x1654AE6B, 2 ^ 64 - 1), (0x1043A770, 2 ^ 64 - 1),
   (0x1F43B675, 2 ^ 64 - 1), (0x1C53BB6B, 2 ^ 64 - 1)]

/-- Finding (why the theorem above is partial): five entries whose positions need eight bytes fill
the reserved space completely, no byte is left for the Void element, and writing it stores its
first byte behind the reserved space, destroying the start of the next element, before failure is
reported. -/
theorem C24_full_head_overruns :
    ∃ h, recordAll {} fullHead = some h ∧ (seekEntries fullHead).length = 105 ∧
      ∃ c s', h.finalize true ⟨List.replicate 110 0 ++ [0x15, 0x49], 112, 0, fun _ => none⟩ = (.err c, s') ∧
        s'.data.drop 110 = [0xEC, 0x49] := by
  refine ⟨⟨fullHead, 0⟩, by decide, by decide +kernel, 
    (-1), ((⟨fullHead, 0⟩ : SeekHead).finalize true ⟨List.replicate 110 0 ++ [0x15, 0x49], 112, 0, fun _ => none⟩).2, ?_, ?_⟩
  · have : ((⟨fullHead, 0⟩ : SeekHead).finalize true
        ⟨List.replicate 110 0 ++ [0x15, 0x49], 112, 0, fun _ => none⟩).1 = .err (-1) := by
      decide +kernel
    rw [← this]
  · decide +kernel

/-! Non-vacuity -/

private def someEntries : List (Nat × Nat) :=
  [(0x1549A966, 0), (0x1654AE6B, 100), (0x1F43B675, 4000), (0x1C53BB6B, 123456789)]

example : ∀ e ∈ someEntries, Recordable e := by
  intro e he
  simp only [someEntries, List.mem_cons, List.not_mem_nil, or_false] at he
  rcases he with rfl | rfl | rfl | rfl <;> exact ⟨⟨4, by unfold IsId; decide⟩, by decide⟩

example : ∃ h, recordAll {} someEntries = some h ∧
    (({ h with startPos := 2 } : SeekHead).finalize true
      ⟨[1, 2] ++ (List.replicate 110 0 ++ [7]), 113, 0, fun _ => none⟩).1 = .ok () :=
  ⟨_, rfl, by decide +kernel⟩

example : (SeekHead.write {} ⟨[1, 2], 2, 0, fun _ => none⟩).1 = .ok () := by decide +kernel

end Verif.Props

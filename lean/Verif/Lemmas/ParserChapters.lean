/-
mkvparser reads the Info, Chapters and Tags elements the muxer writes.
-/
import Verif.Lemmas.ParserTracks
import Verif.Lemmas.FileTree

namespace Verif.Par
open Verif Verif.Spec Verif.Mux

variable {r : Rdr}

/-- Close `IsId n id` for numerals. -/
local macro "isid" : tactic => `(tactic| (unfold IsId; decide +kernel))

/-! ### Info -/

theorem fields_cons (id : Nat) (bs : Bytes) (fs : List (Nat × Bytes)) :
    fieldsTree ((id, bs) :: fs) = (plain id bs).append (fieldsTree fs) := rfl

theorem info_reads {scale : Nat} {duration : Option UInt32} {date : Option Int} {muxing writing : Bytes}
    (h : ReadableInfo scale duration muxing writing) :
    Reads r (infoStep r) (fieldsTree (infoFields scale (duration.map UInt32.toNat) date muxing writing)) {}
      (seenInfo scale duration muxing writing) := by
  unfold infoFields
  obtain ⟨hs1, hs2⟩ := h.ticks
  have hn : (UInt64.ofNat scale).toNat = scale := by
    rw [UInt64.toNat_ofNat']; exact Nat.mod_eq_of_lt (by omega)
  have hlen := number_small (UInt64.ofNat scale)
  rw [hn] at hlen
  simp only [List.cons_append, List.append_assoc, uintField]
  rw [fields_cons]
  refine Reads.append (b := { timecodeScale := scale }) (Reads.plain (n := 3) (by isid) (by omega)
    fun p q hq _ => ?_) ?_
  · show (uintFrom 1 r ⟨q, 0x2AD7B1, _⟩ >>= fun v => .ok { ({} : ReadInfo) with timecodeScale := v }) = _
    rw [← hn] at hq
    have := uintFrom_ok (v := UInt64.ofNat scale) (least := 1) (id := 0x2AD7B1) (by omega) (by omega) hq
    rw [hn] at this
    rw [this]
    rfl
  have hdate : ∀ st : ReadInfo, st.muxingApp = none → st.writingApp = none → Reads r (infoStep r)
      (fieldsTree ((date.toList.map fun d => (0x4461, twosBytes 8 d)) ++ [(0x4D80, muxing), (0x5741, writing)])) st
      { st with muxingApp := some muxing, writingApp := some writing } := by
    intro st h1 h2
    have hlast : Reads r (infoStep r) (fieldsTree [(0x4D80, muxing), (0x5741, writing)]) st
        { st with muxingApp := some muxing, writingApp := some writing } := by
      rw [fields_cons]
      refine Reads.append (b := { st with muxingApp := some muxing }) (Reads.plain (n := 2) (by isid)
        (by have := h.muxing; omega) fun p q hq _ => ?_) ?_
      · show (unserializeString r q muxing.length >>= fun s => .ok { st with muxingApp := some s }) = _
        rw [unserializeString_at hq h.muxing]; rfl
      rw [fields_cons]
      refine Reads.append (b := { st with muxingApp := some muxing, writingApp := some writing }) (Reads.plain (n := 2) (by isid)
        (by have := h.writing; omega) fun p q hq _ => ?_) Reads.nil
      show (unserializeString r q writing.length >>= fun s =>
        .ok { ({ st with muxingApp := some muxing } : ReadInfo) with writingApp := some s }) = _
      rw [unserializeString_at hq h.writing]; rfl
    cases date with
    | none => exact hlast
    | some d =>
      show Reads r _ (fieldsTree ((0x4461, twosBytes 8 d) :: _)) _ _
      rw [fields_cons]
      refine Reads.append (b := st) (Reads.plain (n := 2) (by isid) ?_ fun p q hq _ => rfl) hlast
      simp [twosBytes]
  cases hd : duration with
  | none =>
    exact hdate { timecodeScale := scale } rfl rfl
  | some d =>
    show Reads r _ (fieldsTree ((0x4489, beBytes 4 d.toNat) :: _)) _ _
    rw [fields_cons]
    refine Reads.append (b := { timecodeScale := scale, duration := some (d.toNat, 4) })
      (Reads.float (n := 2) (by isid) fun p q hq => ?_) ?_
    rotate_left
    · exact hdate { timecodeScale := scale, duration := some (d.toNat, 4) } rfl rfl
    obtain ⟨h1, h2, -⟩ := h.duration d hd
    show (unserializeFloat r q 4 >>= fun d => (Res.refuse (Dbl.units d < 0) E_FILE_FORMAT_INVALID >>= fun _ =>
      .ok { ({ timecodeScale := scale } : ReadInfo) with duration := some d })) = _
    have h3 := units_nonneg h2
    have h4 : ¬ Dbl.units (d.toNat, 4) < 0 := by omega
    rw [float_at h1 hq, Res.bind_ok, Res.refuse_neg h4]
    rfl

theorem roundDiv_dvd {a b : Nat} (hb : 0 < b) (h : b ∣ a) : roundDiv a b * b = a := by
  unfold roundDiv
  rw [Nat.mod_eq_zero_of_dvd h, Nat.zero_mul, if_pos (Or.inl hb), Nat.div_mul_cancel h]

theorem round53_exact {m k : Nat} (hm : m < 2 ^ 53) : round53 (m * 2 ^ k) = m * 2 ^ k := by
  unfold round53
  split
  · rfl
  · rename_i hge
    refine roundDiv_dvd (Nat.two_pow_pos _) ?_
    have h0 : m * 2 ^ k ≠ 0 := by
      intro h0
      rw [h0] at hge
      exact hge (Nat.two_pow_pos 53)
    have hlog : (m * 2 ^ k).log2 < 53 + k := by
      rw [Nat.log2_lt h0, Nat.pow_add]
      exact (Nat.mul_lt_mul_right (Nat.two_pow_pos k)).mpr hm
    have : 2 ^ ((m * 2 ^ k).log2 - 52) ∣ 2 ^ k := Nat.pow_dvd_pow 2 (by omega)
    exact Nat.dvd_trans this (Nat.dvd_mul_left ..)

/-- A float that is not negative is an integer of at most 24 bits times a power of two. -/
theorem float_mantissa {v : UInt32} (h : 0 ≤ floatUnits v) : ∃ f j : Nat, f < 2 ^ 24 ∧ floatUnits v = ((f * 2 ^ j : Nat) : Int) := by
  have hm := Nat.mod_lt v.toNat (by decide : 0 < 2 ^ 23)
  unfold floatUnits at h ⊢
  simp only at h ⊢
  by_cases he : v.toNat / 2 ^ 23 % 2 ^ 8 = 0
  · rw [if_pos he] at h ⊢
    refine ⟨v.toNat % 2 ^ 23, 0, by omega, ?_⟩
    split at h <;> split <;> omega
  · rw [if_neg he] at h ⊢
    refine ⟨2 ^ 23 + v.toNat % 2 ^ 23, v.toNat / 2 ^ 23 % 2 ^ 8 - 1, by omega, ?_⟩
    split at h <;> split <;> omega

/-- The product is exact. -/
theorem times_exact {v : UInt32} (h : 0 ≤ floatUnits v) {scale : Nat} (hs : scale ≤ 2 ^ 29) :
    Dbl.times (v.toNat, 4) scale = (floatUnits v).toNat * scale * 2 ^ 925 := by
  obtain ⟨f, j, hf, hv⟩ := float_mantissa h
  unfold Dbl.times
  rw [units_float, hv]
  have h1 : (((f * 2 ^ j : Nat) : Int) * 2 ^ 925).toNat = f * 2 ^ j * 2 ^ 925 := by
    rw [show ((2 : Int) ^ 925) = ((2 ^ 925 : Nat) : Int) by decide +kernel, ← Int.natCast_mul, Int.toNat_natCast]
  have h2 : round53 (scale : Int).toNat = scale := by
    unfold round53
    rw [Int.toNat_natCast, if_pos (by omega)]
  rw [h1, h2, Int.toNat_natCast]
  have h3 : f * 2 ^ j * 2 ^ 925 * scale = (f * scale) * 2 ^ (j + 925) := by
    rw [Nat.pow_add]
    simp only [Nat.mul_assoc, Nat.mul_comm]
  have h4 : f * scale < 2 ^ 53 := by
    have : f * scale ≤ f * 2 ^ 29 := Nat.mul_le_mul_left _ hs
    omega
  rw [h3, round53_exact h4, ← h3]
  simp only [Nat.mul_assoc, Nat.mul_comm]

theorem infoParse_ok {scale : Nat} {duration : Option UInt32} {date : Option Int} {muxing writing : Bytes}
    (h : ReadableInfo scale duration muxing writing) {q n : Nat}
    (hn : n = (fieldsTree (infoFields scale (duration.map UInt32.toNat) date muxing writing)).bytes.length)
    (hq : At r.data q (fieldsTree (infoFields scale (duration.map UInt32.toNat) date muxing writing)).bytes)
    (hm : q + n ≤ llongMax) : infoParse r q n = .ok (seenInfo scale duration muxing writing) := by
  subst hn
  unfold infoParse
  rw [(info_reads h).run hq hm, Res.bind_ok]
  cases hd : duration with
  | none => rfl
  | some d =>
    obtain ⟨h1, h2, h3⟩ := h.duration d hd
    have hx : ¬ (2 ^ 63 * 2 ^ 1074 < Dbl.times (d.toNat, 4) ((scale : Nat) : Int)) := by
      rw [times_exact h2 h.ticks.2]
      have e : (2 ^ 63 * 2 ^ 1074 : Nat) = 2 ^ 63 * 2 ^ 149 * 2 ^ 925 := by decide +kernel
      have h4 : (floatUnits d).toNat * scale ≤ 2 ^ 63 * 2 ^ 149 := by
        have e1 : ((floatUnits d).toNat : Int) = floatUnits d := Int.toNat_of_nonneg h2
        rw [← e1] at h3
        have : ((floatUnits d).toNat * scale : Nat) < 2 ^ 63 * 2 ^ 149 := by exact_mod_cast h3
        omega
      rw [e]
      exact Nat.not_lt.mpr (Nat.mul_le_mul_right _ h4)
    show (Res.refuse (2 ^ 63 * 2 ^ 1074 < Dbl.times (d.toNat, 4) ((scale : Nat) : Int)) E_FILE_FORMAT_INVALID >>= fun _ => _) = _
    rw [Res.refuse_neg hx]
    rfl

theorem duration_ok {scale : Nat} {duration : Option UInt32} {muxing writing : Bytes}
    (h : ReadableInfo scale duration muxing writing) {d : UInt32} (hd : duration = some d) :
    (seenInfo scale duration muxing writing).getDuration = .ok (((floatUnits d).toNat * scale / 2 ^ 149 : Nat) : Int) := by
  obtain ⟨h1, h2, h3⟩ := h.duration d hd
  subst hd
  unfold ReadInfo.getDuration seenInfo
  simp only [Option.map_some]
  rw [times_exact h2 h.ticks.2]
  have e : (2 ^ 1074 : Nat) = 2 ^ 149 * 2 ^ 925 := by decide +kernel
  rw [e, Nat.mul_div_mul_right _ _ (Nat.two_pow_pos 925)]
  have e1 : ((floatUnits d).toNat : Int) = floatUnits d := Int.toNat_of_nonneg h2
  rw [← e1] at h3
  have h4 : ((floatUnits d).toNat * scale : Nat) < 2 ^ 63 * 2 ^ 149 := by exact_mod_cast h3
  have h5 := (Nat.div_lt_iff_lt_mul (Nat.two_pow_pos 149)).mpr h4
  rw [if_pos h5]

/-! ### Chapters -/

theorem unserializeInt_at {v : UInt64} {q : Nat} (h : At r.data q (beBytes (byteWidth v.toNat) v.toNat)) :
    unserializeInt r q (beBytes (byteWidth v.toNat) v.toNat).length =
      .ok (twosVal (beBytes (byteWidth v.toNat) v.toNat)) := by
  have h64 := u64_lt v
  have hb := getUIntSize_bounds v.toNat
  rw [← byteWidth_eq h64] at hb
  have hl := h.le (by intro h0; have := congrArg List.length h0; simp at this; omega)
  have h2 := h.slice_eq (beBytes_length _ _)
  rw [beBytes_length] at hl ⊢
  rw [unserializeInt_ok hb.1 hb.2 hl, h2]

/-- The number that is read back from an unsigned number. -/
def signExtended (v : UInt64) : Nat :=
  if v.toNat < 2 ^ (8 * byteWidth v.toNat - 1) then v.toNat else v.toNat + (2 ^ 64 - 2 ^ (8 * byteWidth v.toNat))

theorem toU64_twosVal (v : UInt64) : toU64 (twosVal (beBytes (byteWidth v.toNat) v.toNat)) = signExtended v := by
  have h64 := u64_lt v
  have hb := getUIntSize_bounds v.toNat
  have hf := getUIntSize_fits h64
  rw [← byteWidth_eq h64] at hb hf
  unfold twosVal signExtended toU64
  rw [beVal_beBytes, Nat.mod_eq_of_lt hf, beBytes_length]
  rw [show (256 : Nat) = 2 ^ 8 from rfl, ← Nat.pow_mul] at hf
  have h2 : 2 ^ (8 * byteWidth v.toNat) ≤ 2 ^ 64 := Nat.pow_le_pow_right (by decide) (by omega)
  split
  · omega
  · rw [show ((2 : Int) ^ (8 * byteWidth v.toNat)) = ((2 ^ (8 * byteWidth v.toNat) : Nat) : Int) by norm_cast]
    omega

/-- What is read back from a chapter, whatever its UID. -/
def readBack (c : Mux.Chapter) : ReadAtom := { seenChapter c with uid := signExtended c.uid }

/-- A text below the limit. -/
theorem shortText_reads {σ : Type} {step : Nat → Hdr → σ → Res σ} {a b : σ} {n id : Nat} (hid : IsId n id) {s : Option Bytes}
    (hs : ShortText s) (h0 : seenText s = none → a = b) (hz : ∀ p q, step p ⟨q, id, 0⟩ a = .ok a)
    (h : ∀ t, s = some t → t ≠ [] → ∀ p q, unserializeString r q t.length = .ok t →
      step p ⟨q, id, t.length⟩ a = .ok b) : Reads r step (text id s) a b := by
  cases s with
  | none => rw [h0 rfl]; exact Reads.nil
  | some t =>
    have hl := hs t rfl
    refine Reads.plain hid (by omega) fun p q hq _ => ?_
    by_cases ht : t = []
    · subst ht
      rw [← h0 rfl]
      exact hz p q
    · exact h t rfl ht p q (unserializeString_at hq hl)

theorem seenText_ne {t : Bytes} (h : t ≠ []) : seenText (some t) = some t := by
  unfold seenText
  rw [if_neg (by simpa using h)]

theorem each_reads {α β : Type} {step : Nat → Hdr → List β → Res (List β)} {f : α → Tree} {g : α → β} {xs : List α}
    (h : ∀ x ∈ xs, ∀ st, Reads r step (f x) st (st ++ [g x])) (st : List β) :
    Reads r step (each f xs) st (st ++ xs.map g) := by
  induction xs generalizing st with
  | nil => rw [List.map_nil, List.append_nil]; exact Reads.nil
  | cons x xs ih =>
    rw [each_cons, List.map_cons, ← List.singleton_append, ← List.append_assoc]
    exact (h x (List.mem_cons_self ..) st).append (ih (fun y hy => h y (List.mem_cons_of_mem _ hy)) _)

theorem plain_pos (id : Nat) (b : Bytes) : 0 < (plain id b).bytes.length := by
  rw [plain_bytes]
  exact List.length_pos_iff.mpr (element_ne_nil id b)

/-- The parts of a title. -/
def displayKids (d : Display) : Tree := seq [text 0x85 d.title, text 0x437C d.language, text 0x437E d.country]

theorem display_reads {d : Display} (h : ShortText d.title ∧ ShortText d.language ∧ ShortText d.country) :
    Reads r (displayStep r) (displayKids d) {} (seenDisplay d) := by
  unfold displayKids
  refine Reads.cons (b := { string := seenText d.title }) (shortText_reads (n := 1) (by isid) h.1 ?_ (fun _ _ => rfl) ?_) ?_
  · intro h0; rw [h0]
  · intro t ht hne p q hq
    show (if t.length = 0 then _ else (unserializeString r q t.length >>= fun s =>
      .ok { ({} : ReadDisplay) with string := some s })) = _
    rw [if_neg (by simpa using hne), hq, ht, seenText_ne hne]; rfl
  refine Reads.cons (b := { string := seenText d.title, language := seenText d.language })
    (shortText_reads (n := 2) (by isid) h.2.1 ?_ (fun _ _ => rfl) ?_) ?_
  · intro h0; rw [h0]
  · intro t ht hne p q hq
    show (if t.length = 0 then _ else (unserializeString r q t.length >>= fun s =>
      .ok { ({ string := seenText d.title } : ReadDisplay) with language := some s })) = _
    rw [if_neg (by simpa using hne), hq, ht, seenText_ne hne]; rfl
  refine Reads.cons (b := seenDisplay d)
    (shortText_reads (n := 2) (by isid) h.2.2 ?_ (fun _ _ => rfl) ?_) Reads.seqNil
  · intro h0; unfold seenDisplay; rw [h0]
  · intro t ht hne p q hq
    show (if t.length = 0 then _ else (unserializeString r q t.length >>= fun s =>
      .ok { ({ string := seenText d.title, language := seenText d.language } : ReadDisplay) with country := some s })) = _
    unfold seenDisplay
    rw [if_neg (by simpa using hne), hq, ht, seenText_ne hne]; rfl

theorem displayKids_pos {d : Display} (h : d.title ≠ none) : (displayKids d).bytes.length ≠ 0 := by
  obtain ⟨t, ht⟩ := Option.ne_none_iff_exists'.mp h
  have := plain_pos 0x85 t
  unfold displayKids
  rw [ht, seq_cons_bytes, List.length_append]
  show (plain 0x85 t).bytes.length + _ ≠ 0
  omega

/-- The parts of a chapter. -/
def chapterKids (c : Chapter) : Tree :=
  seq [text 0x5654 c.id, number 0x73C4 c.uid, number 0x91 c.start, number 0x92 c.stop, each displayTree c.displays]

theorem displays_reads {ds : List Display}
    (h : ∀ d ∈ ds, ShortText d.title ∧ ShortText d.language ∧ ShortText d.country) (hok : ∀ d ∈ ds, d.title ≠ none)
    (hf : (each displayTree ds).Fits) (a : ReadAtom) :
    Reads r (atomStep r) (each displayTree ds) a { a with displays := a.displays ++ ds.map seenDisplay } := by
  induction ds generalizing a with
  | nil => rw [List.map_nil, List.append_nil]; exact Reads.nil
  | cons d ds ih =>
    rw [each_cons, Tree.append_fits] at hf
    rw [each_cons]
    refine Reads.append (b := { a with displays := a.displays ++ [seenDisplay d] }) ?_ ?_
    · have hf1 : (group 0x80 (displayKids d)).Fits := hf.1
      rw [group_fits] at hf1
      refine Reads.group (n := 1) (by isid) hf1.1 fun p q hq hm => ?_
      show (if (displayKids d).bytes.length = 0 then _ else (displayParse r q (displayKids d).bytes.length >>= fun d =>
        .ok { a with displays := a.displays ++ [d] })) = _
      unfold displayParse
      rw [if_neg (displayKids_pos (hok d (List.mem_cons_self ..))),
        (display_reads (h d (List.mem_cons_self ..))).run hq hm]
      rfl
    · have := ih (fun x hx => h x (List.mem_cons_of_mem _ hx)) (fun x hx => hok x (List.mem_cons_of_mem _ hx)) hf.2
        { a with displays := a.displays ++ [seenDisplay d] }
      rw [List.append_assoc, List.singleton_append] at this
      rw [List.map_cons]
      exact this

theorem number_ne (v : UInt64) : (beBytes (byteWidth v.toNat) v.toNat).length ≠ 0 := by
  have := uintPayload_pos v.toNat
  omega

/-- A chapter after its UID, and after its first time. -/
private def readBack1 (c : Chapter) : ReadAtom := { stringUid := seenText c.id, uid := signExtended c.uid }
private def readBack2 (c : Chapter) : ReadAtom := { readBack1 c with start := c.start.toNat }
private def readBack3 (c : Chapter) : ReadAtom := { readBack2 c with stop := c.stop.toNat }

theorem chapter_reads {c : Chapter} (h : ReadableChapter c) (hok : ChapterOk c) (hf : (chapterKids c).Fits) :
    Reads r (atomStep r) (chapterKids c) {} (readBack c) := by
  unfold chapterKids at hf ⊢
  simp only [seq_cons_fits] at hf
  obtain ⟨-, -, -, -, hf, -⟩ := hf
  refine Reads.cons (b := { stringUid := seenText c.id }) (shortText_reads (n := 2) (by isid) h.id ?_ (fun _ _ => rfl) ?_) ?_
  · intro h0; rw [h0]
  · intro t ht hne p q hq
    show (if t.length = 0 then _ else (match unserializeString r q t.length with
      | .ok s => (.ok { ({} : ReadAtom) with stringUid := some s } : Res ReadAtom)
      | .err c => if c < 0 then .err c else .ok { ({} : ReadAtom) with stringUid := none }
      | .ub => .ub)) = _
    rw [if_neg (by simpa using hne), hq, ht, seenText_ne hne]
  refine Reads.cons (b := readBack1 c) (Reads.number (n := 2) (by isid) fun p q hq => ?_) ?_
  · show (if _ = 0 then _ else (unserializeInt r q _ >>= fun v =>
      .ok { ({ stringUid := seenText c.id } : ReadAtom) with uid := toU64 v })) = _
    rw [if_neg (number_ne _), unserializeInt_at hq, Res.bind_ok, toU64_twosVal]
    rfl
  refine Reads.cons (b := readBack2 c) (Reads.number (n := 1) (by isid) fun p q hq => ?_) ?_
  · show (if _ = 0 then _ else (uintAt r ⟨q, 0x91, _⟩ >>= fun v => (Res.refuse (v < 0) v >>= fun _ =>
      .ok { readBack1 c with start := v }))) = _
    rw [if_neg (number_ne _), uintAt_small h.times.1 hq, Res.bind_ok, Res.refuse_neg (by omega)]
    rfl
  refine Reads.cons (b := readBack3 c) (Reads.number (n := 1) (by isid) fun p q hq => ?_) ?_
  · show (if _ = 0 then _ else (uintAt r ⟨q, 0x92, _⟩ >>= fun v => (Res.refuse (v < 0) v >>= fun _ =>
      .ok { readBack2 c with stop := v }))) = _
    rw [if_neg (number_ne _), uintAt_small h.times.2 hq, Res.bind_ok, Res.refuse_neg (by omega)]
    rfl
  exact Reads.cons (displays_reads h.displays hok.2 hf _) Reads.seqNil

theorem chapterKids_pos (c : Chapter) : (chapterKids c).bytes.length ≠ 0 := by
  have := plain_pos 0x73C4 (beBytes (byteWidth c.uid.toNat) c.uid.toNat)
  unfold chapterKids
  rw [seq_cons_bytes, seq_cons_bytes]
  simp only [List.length_append]
  show _ + ((plain 0x73C4 (beBytes (byteWidth c.uid.toNat) c.uid.toNat)).bytes.length + _) ≠ 0
  omega

theorem edition_reads {cs : List Chapter} (h : ∀ c ∈ cs, ReadableChapter c) (hok : ∀ c ∈ cs, ChapterOk c)
    (hf : (each chapterTree cs).Fits) (st : List ReadAtom) :
    Reads r (editionStep r) (each chapterTree cs) st (st ++ cs.map readBack) := by
  refine each_reads (fun c hc st => ?_) st
  have hf1 : (group 0xB6 (chapterKids c)).Fits := each_fits hf c hc
  rw [group_fits] at hf1
  refine Reads.group (n := 1) (by isid) hf1.1 fun p q hq hm => ?_
  show (if (chapterKids c).bytes.length = 0 then _ else (atomParse r q (chapterKids c).bytes.length >>= fun a =>
    .ok (st ++ [a]))) = _
  unfold atomParse
  rw [if_neg (chapterKids_pos c), (chapter_reads (h c hc) (hok c hc) hf1.2).run hq hm]
  rfl

theorem each_pos {α : Type} {f : α → Tree} {xs : List α} (h : ∀ x ∈ xs, (f x).bytes.length ≠ 0) :
    (each f xs).bytes.length = 0 ↔ xs = [] := by
  cases xs with
  | nil => simp [each]
  | cons x xs =>
    have := h x (List.mem_cons_self ..)
    rw [each_cons, Tree.append_bytes, List.length_append]
    simp
    intro h0
    exact absurd (by rw [h0]; rfl) this

theorem group_pos (id : Nat) (t : Tree) : (group id t).bytes.length ≠ 0 := by
  rw [group_bytes]
  have := List.length_pos_iff.mpr (element_ne_nil id t.bytes)
  omega

theorem chaptersParse_ok {cs : List Chapter} (h : ∀ c ∈ cs, ReadableChapter c) (hok : ∀ c ∈ cs, ChapterOk c)
    (hf : (group 0x45B9 (each chapterTree cs)).Fits) {q n : Nat}
    (hn : n = (group 0x45B9 (each chapterTree cs)).bytes.length)
    (hq : At r.data q (group 0x45B9 (each chapterTree cs)).bytes) (hm : q + n ≤ llongMax) :
    chaptersParse r q n = .ok (if cs = [] then [] else [cs.map readBack]) := by
  subst hn
  rw [group_fits] at hf
  unfold chaptersParse
  refine Reads.run (Reads.group (n := 2) (by isid) hf.1 fun p q hq hm => ?_) hq hm
  show (if (each chapterTree cs).bytes.length = 0 then _ else (editionParse r q (each chapterTree cs).bytes.length >>= fun e =>
    .ok ([] ++ [e]))) = _
  have h0 := each_pos (f := chapterTree) (xs := cs) (fun c _ => group_pos _ _)
  by_cases hc : cs = []
  · rw [if_pos (h0.mpr hc), if_pos hc]
  · rw [if_neg (mt h0.mp hc), if_neg hc]
    unfold editionParse
    rw [(edition_reads h hok hf.2 []).run hq hm]
    rfl

theorem chapters_at {cs : List Chapter} (hok : ∀ c ∈ cs, ChapterOk c) (hfit : (chaptersTree cs).Fits)
    (hread : ∀ c ∈ cs, ReadableChapter c) {p stop : Nat} (ha : At r.data p (chaptersTree cs).bytes)
    (hs : p + (chaptersTree cs).bytes.length ≤ stop) (hm : stop ≤ 2 ^ 63 - 1) :
    ∃ h, parseElementHeader r p stop = .ok h ∧ h.id = 0x1043A770 ∧ h.pos + h.size = p + (chaptersTree cs).bytes.length ∧
      chaptersParse r h.pos h.size = .ok (if cs = [] then [] else [cs.map readBack]) := by
  have hid : IsId 4 0x1043A770 := by isid
  unfold chaptersTree at *
  rw [group_fits] at hfit
  rw [group_bytes 0x1043A770] at *
  have hl := element_length_id hid (group 0x45B9 (each chapterTree cs)).bytes
  refine ⟨_, parseElementHeader_at hid ha hfit.1 hs hm, rfl, by simp only; omega, ?_⟩
  exact chaptersParse_ok hread hok hfit.2 rfl (at_payload hid ha) (by simp only; unfold llongMax; omega)

theorem readBack_eq {c : Chapter} (h : ReadsUnsigned c.uid) : readBack c = seenChapter c := by
  have : signExtended c.uid = c.uid.toNat := by
    unfold signExtended
    rcases h with h | h
    · rw [if_pos h]
    · have h64 := u64_lt c.uid
      rw [byteWidth_of_bounds 7 c.uid.toNat (by omega) (Or.inr (by omega))]
      split <;> rfl
  unfold readBack
  rw [this]
  rfl

theorem signExtended_ne {c : Chapter} (h : ¬ ReadsUnsigned c.uid) :
    (readBack c).uid = c.uid.toNat + (2 ^ 64 - 2 ^ (8 * byteWidth c.uid.toNat)) ∧ (readBack c).uid ≠ c.uid.toNat := by
  unfold ReadsUnsigned at h
  have h1 : (readBack c).uid = c.uid.toNat + (2 ^ 64 - 2 ^ (8 * byteWidth c.uid.toNat)) := by
    show signExtended c.uid = _
    unfold signExtended
    rw [if_neg (fun x => h (Or.inl x))]
  refine ⟨h1, ?_⟩
  have hw : byteWidth c.uid.toNat ≤ 7 := by
    rw [byteWidth_eq (u64_lt _)]
    exact getUIntSize_le (by omega) (by omega)
  have : 2 ^ (8 * byteWidth c.uid.toNat) ≤ 2 ^ 56 := Nat.pow_le_pow_right (by decide) (by omega)
  omega

theorem infoFields_small {scale : Nat} {duration : Option UInt32} {date : Option Int} {muxing writing : Bytes}
    (h : ReadableInfo scale duration muxing writing) :
    (fieldsTree (infoFields scale (duration.map UInt32.toNat) date muxing writing)).bytes.length + 1 < 2 ^ 56 := by
  have hle : ∀ id (b : Bytes), id < 2 ^ 32 → (plain id b).bytes.length ≤ 13 + b.length := by
    intro id b hid
    rw [plain_bytes]
    have := element_length_le id b hid
    omega
  have hsc := number_small (UInt64.ofNat scale)
  have hn : (UInt64.ofNat scale).toNat = scale := by
    rw [UInt64.toNat_ofNat']; exact Nat.mod_eq_of_lt (by have := h.ticks.2; omega)
  rw [hn] at hsc
  have h1 := h.muxing
  have h2 := h.writing
  have e1 := hle 0x2AD7B1 (beBytes (byteWidth scale) scale) (by decide)
  have e2 := hle 0x4D80 muxing (by decide)
  have e3 := hle 0x5741 writing (by decide)
  have e4 : ∀ d : Nat, (plain 0x4489 (beBytes 4 d)).bytes.length ≤ 17 := fun d => by
    have := hle 0x4489 (beBytes 4 d) (by decide)
    rw [beBytes_length] at this; omega
  have e5 : ∀ d : Int, (plain 0x4461 (twosBytes 8 d)).bytes.length ≤ 21 := fun d => by
    have := hle 0x4461 (twosBytes 8 d) (by decide)
    simp only [twosBytes, beBytes_length] at this
    simp only [twosBytes]; omega
  unfold infoFields
  cases duration with
  | none =>
    cases date with
    | none =>
      simp only [uintField, Option.map_none, Option.toList, List.map_nil, List.cons_append, List.nil_append, List.append_nil,
        fields_cons, Tree.append_bytes, List.length_append]
      show _ + (_ + (_ + 0)) + 1 < _
      omega
    | some t =>
      have := e5 t
      simp only [uintField, Option.map_none, Option.toList, List.map_nil, List.map_cons, List.cons_append, List.nil_append,
        fields_cons, Tree.append_bytes, List.length_append]
      show _ + (_ + (_ + (_ + 0))) + 1 < _
      omega
  | some d =>
    have := e4 d.toNat
    cases date with
    | none =>
      simp only [uintField, Option.map_some, Option.toList, List.map_nil, List.map_cons, List.cons_append, List.nil_append,
        fields_cons, Tree.append_bytes, List.length_append]
      show _ + (_ + (_ + (_ + 0))) + 1 < _
      omega
    | some t =>
      have := e5 t
      simp only [uintField, Option.map_some, Option.toList, List.map_nil, List.map_cons, List.cons_append, List.nil_append,
        fields_cons, Tree.append_bytes, List.length_append]
      show _ + (_ + (_ + (_ + (_ + 0)))) + 1 < _
      omega

/-! ### Tags -/

/-- The parts of a simple tag. -/
def simpleTagKids (t : SimpleTag) : Tree := seq [text 0x45A3 t.name, text 0x4487 t.string]

theorem simpleTag_reads {t : SimpleTag} (h : ShortText t.name ∧ ShortText t.string) :
    Reads r (simpleTagStep r) (simpleTagKids t) {} ⟨seenText t.name, seenText t.string⟩ := by
  unfold simpleTagKids
  refine Reads.cons (b := { name := seenText t.name }) (shortText_reads (n := 2) (by isid) h.1 ?_ (fun _ _ => rfl) ?_) ?_
  · intro h0; rw [h0]
  · intro s ht hne p q hq
    show (if s.length = 0 then _ else (unserializeString r q s.length >>= fun s =>
      .ok { ({} : ReadSimpleTag) with name := some s })) = _
    rw [if_neg (by simpa using hne), hq, ht, seenText_ne hne]; rfl
  refine Reads.cons (b := ⟨seenText t.name, seenText t.string⟩)
    (shortText_reads (n := 2) (by isid) h.2 ?_ (fun _ _ => rfl) ?_) Reads.seqNil
  · intro h0; rw [h0]
  · intro s ht hne p q hq
    show (if s.length = 0 then _ else (unserializeString r q s.length >>= fun s =>
      .ok { ({ name := seenText t.name } : ReadSimpleTag) with string := some s })) = _
    rw [if_neg (by simpa using hne), hq, ht, seenText_ne hne]; rfl

theorem simpleTagKids_pos {t : SimpleTag} (h : t.name ≠ none) : (simpleTagKids t).bytes.length ≠ 0 := by
  obtain ⟨s, ht⟩ := Option.ne_none_iff_exists'.mp h
  have := plain_pos 0x45A3 s
  unfold simpleTagKids
  rw [ht, seq_cons_bytes, List.length_append]
  show (plain 0x45A3 s).bytes.length + _ ≠ 0
  omega

theorem tag_reads {t : Tag} (h : ReadableTag t) (hok : TagOk t) (hf : (each simpleTagTree t).Fits) (st : List ReadSimpleTag) :
    Reads r (tagStep r) (each simpleTagTree t) st (st ++ seenTag t) := by
  refine each_reads (fun s hs st => ?_) st
  have hf1 : (group 0x67C8 (simpleTagKids s)).Fits := each_fits hf s hs
  rw [group_fits] at hf1
  refine Reads.group (n := 2) (by isid) hf1.1 fun p q hq hm => ?_
  show (if (simpleTagKids s).bytes.length = 0 then _ else (simpleTagParse r q (simpleTagKids s).bytes.length >>= fun a =>
    .ok (st ++ [a]))) = _
  unfold simpleTagParse
  rw [if_neg (simpleTagKids_pos (hok s hs).1), (simpleTag_reads (h s hs)).run hq hm]
  rfl

theorem tags_reads {ts : List Tag} (h : ∀ t ∈ ts, ReadableTag t) (hok : ∀ t ∈ ts, TagOk t)
    (hf : (each (fun t => group 0x7373 (each simpleTagTree t)) ts).Fits) (st : List (List ReadSimpleTag)) :
    Reads r (tagsStep r) (each (fun t => group 0x7373 (each simpleTagTree t)) ts) st (st ++ seenTags ts) := by
  induction ts generalizing st with
  | nil => simp only [seenTags, List.filter_nil, List.map_nil, List.append_nil]; exact Reads.nil
  | cons t ts ih =>
    rw [each_cons, Tree.append_fits, group_fits] at hf
    rw [each_cons]
    refine Reads.append (b := st ++ seenTags [t]) (Reads.group (n := 2) (by isid) hf.1.1 fun p q hq hm => ?_) ?_
    · show (if (each simpleTagTree t).bytes.length = 0 then _ else (tagParse r q (each simpleTagTree t).bytes.length >>= fun e =>
        .ok (st ++ [e]))) = _
      have h0 := each_pos (f := simpleTagTree) (xs := t) (fun c _ => group_pos _ _)
      by_cases hc : t = []
      · rw [if_pos (h0.mpr hc), hc]
        simp [seenTags]
      · rw [if_neg (mt h0.mp hc)]
        unfold tagParse
        rw [(tag_reads (h t (List.mem_cons_self ..)) (hok t (List.mem_cons_self ..)) hf.1.2 []).run hq hm]
        simp [seenTags, hc]
    · have := ih (fun x hx => h x (List.mem_cons_of_mem _ hx)) (fun x hx => hok x (List.mem_cons_of_mem _ hx)) hf.2
        (st ++ seenTags [t])
      have e : seenTags [t] ++ seenTags ts = seenTags (t :: ts) := by
        unfold seenTags
        rw [← List.map_append, ← List.filter_append, List.singleton_append]
      rw [List.append_assoc, e] at this
      exact this

theorem tagsParse_ok {ts : List Tag} (h : ∀ t ∈ ts, ReadableTag t) (hok : ∀ t ∈ ts, TagOk t)
    (hf : (each (fun t => group 0x7373 (each simpleTagTree t)) ts).Fits) {q n : Nat}
    (hn : n = (each (fun t => group 0x7373 (each simpleTagTree t)) ts).bytes.length)
    (hq : At r.data q (each (fun t => group 0x7373 (each simpleTagTree t)) ts).bytes) (hm : q + n ≤ llongMax) :
    tagsParse r q n = .ok (seenTags ts) := by
  subst hn
  exact (tags_reads h hok hf []).run hq hm

end Verif.Par

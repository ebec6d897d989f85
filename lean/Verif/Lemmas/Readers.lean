/-
The readers and writers that come with the library answer as the ideal ones do.
-/
import Verif.Spec.Readers

namespace Verif.Io
open Verif Web Par

theorem slice_length (d : Bytes) (p n : Nat) : (slice d p n).length = min n (d.length - p) := by
  simp [slice]

theorem takeAvail_all (bs : Bytes) (es : List (Option UInt8)) : takeAvail bs.length (bs.map some ++ es) = (bs, es, false) := by
  induction bs with
  | nil => cases es <;> rfl
  | cons b bs ih => simp [takeAvail, ih]

theorem takeAvail_stop (bs : Bytes) (n : Nat) (es : List (Option UInt8)) (h : bs.length < n) :
    takeAvail n (bs.map some ++ none :: es) = (bs, es, true) := by
  induction bs generalizing n with
  | nil => obtain ⟨n, rfl⟩ : ∃ m, n = m + 1 := ⟨n - 1, by simp at h; omega⟩; rfl
  | cons b bs ih =>
    obtain ⟨n, rfl⟩ : ∃ m, n = m + 1 := ⟨n - 1, by simp at h; omega⟩
    simp [takeAvail, ih n (by simpa using h)]

theorem takeAvail_end (bs : Bytes) (n : Nat) (h : bs.length < n) : takeAvail n (bs.map some) = (bs, [], false) := by
  induction bs generalizing n with
  | nil => obtain ⟨n, rfl⟩ : ∃ m, n = m + 1 := ⟨n - 1, by simp at h; omega⟩; rfl
  | cons b bs ih =>
    obtain ⟨n, rfl⟩ : ∃ m, n = m + 1 := ⟨n - 1, by simp at h; omega⟩
    simp [takeAvail, ih n (by simpa using h)]

theorem read_all (bs : Bytes) (es : List (Option UInt8)) (p : Nat) :
    Src.read ⟨bs.map some ++ es, p⟩ bs.length = (.okCompleted, bs, ⟨es, p + bs.length⟩) := by
  simp [Src.read, takeAvail_all]

theorem read_stop (bs : Bytes) (n : Nat) (es : List (Option UInt8)) (p : Nat) (h0 : 0 < bs.length) (h : bs.length < n) :
    Src.read ⟨bs.map some ++ none :: es, p⟩ n = (.okPartial, bs, ⟨es, p + bs.length⟩) := by
  have h1 : ¬ bs.length = n := by omega
  simp [Src.read, takeAvail_stop bs n es h, h1, h0]

theorem read_end (bs : Bytes) (n : Nat) (p : Nat) (h0 : 0 < bs.length) (h : bs.length < n) :
    Src.read ⟨bs.map some, p⟩ n = (.okPartial, bs, ⟨[], p + bs.length⟩) := by
  have h1 : ¬ bs.length = n := by omega
  simp [Src.read, takeAvail_end bs n h, h1, h0]

theorem read_none (n : Nat) (p : Nat) (h : 0 < n) : Src.read ⟨[], p⟩ n = (.endOfFile, [], ⟨[], p⟩) := by
  have := takeAvail_end [] n h
  have h1 : ¬ 0 = n := by omega
  simp only [List.map_nil] at this
  simp [Src.read, this, h1]

/-! ### A call that passes over some bytes -/

/-- The answer of a call that gets `bs`. -/
def passing (c : Call) (bs : Bytes) (p : Nat) : Answer :=
  { status := if bs.length = c.wanted then .okCompleted else if bs.length > 0 then .okPartial else .endOfFile,
    bytes := (match c with | .read _ => bs | .skip _ => []), number := bs.length, position := p + bs.length }

theorem onSrc_of_read (c : Call) (bs : Bytes) (s s' : Src) (p : Nat) (st : Status)
    (h : s.read c.wanted = (st, bs, s')) (hp : s'.pos = p + bs.length)
    (hst : st = if bs.length = c.wanted then .okCompleted else if bs.length > 0 then .okPartial else .endOfFile) :
    onSrc c s = (passing c bs p, s') := by
  cases c with
  | read n => simp only [Call.wanted] at h hst; simp [onSrc, h, passing, Call.wanted, hp, hst]
  | skip n => simp only [Call.wanted] at h hst; simp [onSrc, h, passing, Call.wanted, hp, hst]

/-- What the ideal reader is to deliver to answer so. -/
theorem onSrc_passing (c : Call) (bs : Bytes) (es : List (Option UInt8)) (p : Nat) (hc : 0 < c.wanted) (hle : bs.length ≤ c.wanted)
    (h0 : bs = [] → es = []) :
    ∃ evs, delivered evs = bs ++ delivered es ∧ (bs = [] → evs = []) ∧
      (es = [] → evs = bs.map some) ∧ onSrc c ⟨evs, p⟩ = (passing c bs p, ⟨es, p + bs.length⟩) := by
  by_cases hf : bs.length = c.wanted
  · refine ⟨bs.map some ++ es, ?_, ?_, ?_, ?_⟩
    · simp [delivered]
    · intro hb; subst hb; simp at hf; omega
    · intro he; simp [he]
    · refine onSrc_of_read c bs _ ⟨es, p + bs.length⟩ p .okCompleted ?_ rfl (by simp [hf])
      rw [← hf]; exact read_all bs es p
  · by_cases hb : bs = []
    · subst hb
      refine ⟨[], ?_, fun _ => rfl, fun _ => rfl, ?_⟩
      · rw [h0 rfl]; rfl
      · rw [h0 rfl]
        refine onSrc_of_read c [] _ ⟨[], p + 0⟩ p .endOfFile ?_ rfl ?_
        · exact read_none _ p hc
        · have : ¬ 0 = c.wanted := by omega
          simp [this]
    · have hl : 0 < bs.length := List.length_pos_iff.mpr hb
      cases es with
      | nil =>
        refine ⟨bs.map some, ?_, fun h => absurd h hb, fun _ => rfl, ?_⟩
        · simp [delivered]
        · refine onSrc_of_read c bs _ ⟨[], p + bs.length⟩ p .okPartial ?_ rfl ?_
          · exact read_end bs _ p hl (by omega)
          · simp [hf, hl]
      | cons e es =>
        refine ⟨bs.map some ++ none :: e :: es, ?_, fun h => absurd h hb, fun h => by simp at h, ?_⟩
        · simp [delivered]
        · refine onSrc_of_read c bs _ ⟨e :: es, p + bs.length⟩ p .okPartial ?_ rfl ?_
          · exact read_stop bs _ (e :: es) p hl (by omega)
          · simp [hf, hl]

/-! ### BufferReader -/

theorem onBuffer_passing (c : Call) (r : BufferReader) (hc : 0 < c.wanted) :
    onBuffer c r = (passing c (slice r.data r.pos c.wanted) r.pos, { r with pos := r.pos + (slice r.data r.pos c.wanted).length }) := by
  cases c with
  | read n =>
    simp only [Call.wanted] at hc
    simp only [onBuffer, BufferReader.read, passing, Call.wanted, slice_length]
    by_cases h : r.data.length - r.pos = 0
    · have h1 : ¬ 0 = n := by omega
      have h2 : slice r.data r.pos n = [] := List.eq_nil_of_length_eq_zero (by rw [slice_length]; omega)
      simp [h, h1, h2]
    · by_cases hn : n > r.data.length - r.pos
      · have h1 : ¬ r.data.length - r.pos = n := by omega
        have h2 : min n (r.data.length - r.pos) = r.data.length - r.pos := by omega
        have h4 : slice r.data r.pos (r.data.length - r.pos) = slice r.data r.pos n := by
          simp only [slice]; rw [List.take_of_length_le (by simp), List.take_of_length_le (by simp; omega)]
        have h5 : r.data.length - r.pos > 0 := by omega
        simp [h, hn, h1, h2, h4, h5, slice_length]
      · have h2 : min n (r.data.length - r.pos) = n := by omega
        simp [h, hn, h2, slice_length]
  | skip n =>
    simp only [Call.wanted] at hc
    simp only [onBuffer, BufferReader.skip, passing, Call.wanted, slice_length]
    by_cases h : r.data.length - r.pos = 0
    · have h1 : ¬ 0 = n := by omega
      simp [h, h1]
    · by_cases hn : n > r.data.length - r.pos
      · have h1 : ¬ r.data.length - r.pos = n := by omega
        have h2 : min n (r.data.length - r.pos) = r.data.length - r.pos := by omega
        have h5 : r.data.length - r.pos > 0 := by omega
        simp [h, hn, h1, h2, h5]
      · have h2 : min n (r.data.length - r.pos) = n := by omega
        simp [h, hn, h2]

theorem take_add_drop (d : Bytes) (p n : Nat) :
    d.drop p = slice d p n ++ d.drop (p + (slice d p n).length) := by
  rw [slice_length, slice]
  conv => lhs; rw [← List.take_append_drop n (d.drop p)]
  congr 1
  rw [List.drop_drop]
  by_cases h : n ≤ d.length - p
  · rw [Nat.min_eq_left h]
  · rw [List.drop_of_length_le (by omega), List.drop_of_length_le (by omega)]

theorem buffer_answers (cs : List Call) (hcs : ∀ c ∈ cs, 0 < c.wanted) (r : BufferReader) :
    answers onBuffer cs r = answers onSrc cs ⟨(r.data.drop r.pos).map some, r.pos⟩ := by
  induction cs generalizing r with
  | nil => rfl
  | cons c cs ih =>
    have hc := hcs c (by simp)
    obtain ⟨evs, hd, he, hf, hs⟩ := onSrc_passing c (slice r.data r.pos c.wanted)
      ((r.data.drop (r.pos + (slice r.data r.pos c.wanted).length)).map some) r.pos hc
      (by rw [slice_length]; omega)
      (by
        intro hb
        have h1 : (slice r.data r.pos c.wanted).length = 0 := by rw [hb]; rfl
        rw [slice_length] at h1
        rw [hb, List.drop_of_length_le (by simp; omega)]; rfl)
    have hev : onSrc c ⟨(r.data.drop r.pos).map some, r.pos⟩ = (passing c (slice r.data r.pos c.wanted) r.pos,
        ⟨(r.data.drop (r.pos + (slice r.data r.pos c.wanted).length)).map some, r.pos + (slice r.data r.pos c.wanted).length⟩) := by
      by_cases hlen : (slice r.data r.pos c.wanted).length = c.wanted
      · conv => lhs; rw [take_add_drop r.data r.pos c.wanted, List.map_append]
        refine onSrc_of_read c _ _ _ r.pos .okCompleted ?_ rfl (by simp [hlen])
        have := read_all (slice r.data r.pos c.wanted)
          ((r.data.drop (r.pos + (slice r.data r.pos c.wanted).length)).map some) r.pos
        rw [hlen] at this ⊢
        exact this
      · have hn : r.data.drop (r.pos + (slice r.data r.pos c.wanted).length) = [] := by
          refine List.drop_of_length_le ?_
          rw [slice_length] at hlen ⊢; omega
        rw [hn] at hs hf
        rw [hf rfl] at hs
        rw [take_add_drop r.data r.pos c.wanted, hn, List.append_nil]
        exact hs
    rw [answers, answers, onBuffer_passing c r hc, hev, ih (fun c hm => hcs c (by simp [hm]))]

/-! ### FileReader and IstreamReader -/

/-- Where seeking leads. -/
theorem Stream.skip_some {s s' : Stream} {k : Nat} (h : s.skip k = some s') :
    s' = { s with pos := s.pos + k } ∧ s.seekable = true ∧ (s.pastEnd = true ∨ s.pos + k ≤ s.data.length) := by
  unfold Stream.skip at h
  split at h
  · next hc => exact ⟨(Option.some.inj h).symm, hc.1, hc.2.2⟩
  · simp at h

/-- What holds of a reader between calls. -/
structure InStep (r : StreamReader) (s : Stream) : Prop where
  stream : r.stream = some s
  position : r.position = s.pos
  inside : s.pos ≤ s.data.length
  bad : r.good = false → s.pos = s.data.length

/-- The stream `k` bytes on. -/
def Stream.on (s : Stream) (k : Nat) : Stream := { s with pos := s.pos + k }

theorem onStream_passing (c : Call) (r : StreamReader) (s : Stream) (hr : InStep r s) (hc : 0 < c.wanted)
    (hpos : (onStream c r).1.position ≤ s.data.length) :
    ∃ k, k ≤ c.wanted ∧ (onStream c r).1 = passing c (slice s.data s.pos k) s.pos ∧
      (slice s.data s.pos k = [] → s.pos = s.data.length) ∧
      InStep (onStream c r).2 (s.on (slice s.data s.pos k).length) := by
  obtain ⟨hst, hp, hin, hbad⟩ := hr
  cases c with
  | read n =>
    simp only [Call.wanted] at hc ⊢
    by_cases hg : r.good = true
    · refine ⟨n, Nat.le_refl _, ?_, ?_, ?_⟩
      · simp only [onStream, StreamReader.read, hst, hg, Stream.read, passing, Call.wanted, hp, if_true]
        by_cases h0 : (slice s.data s.pos n).length = 0
        · have h1 : ¬ 0 = n := by omega
          simp [h0, h1]
        · by_cases h1 : (slice s.data s.pos n).length = n
          · have h3 : ¬ n = 0 := by omega
            simp [h1, h3]
          · have h2 : 0 < (slice s.data s.pos n).length := by omega
            simp [h0, h1, h2]
      · intro hb
        have : (slice s.data s.pos n).length = 0 := by rw [hb]; rfl
        rw [slice_length] at this; omega
      · have hl := slice_length s.data s.pos n
        simp only [onStream, StreamReader.read, hst, hg, Stream.read, if_true]
        constructor
        · by_cases h0 : (slice s.data s.pos n).length = 0
          · simp [h0, Stream.on]
          · by_cases h1 : (slice s.data s.pos n).length = n
            · simp [h1, Stream.on]; split <;> rfl
            · simp [h0, h1, Stream.on]
        · by_cases h0 : (slice s.data s.pos n).length = 0
          · simp [h0, Stream.on, hp]
          · by_cases h1 : (slice s.data s.pos n).length = n
            · simp [h1, Stream.on, hp]; split <;> rfl
            · simp [h0, h1, Stream.on, hp]
        · simp only [Stream.on]; omega
        · simp only [Stream.on]
          intro hgood
          have : ¬ (slice s.data s.pos n).length = n := by
            intro h1
            revert hgood
            simp only [h1, beq_self_eq_true, Bool.or_true, Bool.and_true, if_true]
            split <;> simp
          omega
    · simp only [Bool.not_eq_true] at hg
      have he := hbad hg
      refine ⟨n, Nat.le_refl _, ?_, fun _ => he, ?_⟩
      · have hs : slice s.data s.pos n = [] := List.eq_nil_of_length_eq_zero (by rw [slice_length]; omega)
        have h1 : ¬ 0 = n := by omega
        simp [onStream, StreamReader.read, hst, hg, passing, Call.wanted, hp, hs, h1]
      · have hs : slice s.data s.pos n = [] := List.eq_nil_of_length_eq_zero (by rw [slice_length]; omega)
        simp only [onStream, StreamReader.read, hst, hg, hs]
        constructor
        · simp [Stream.on]
        · simp [Stream.on, hp]
        · simpa [Stream.on] using hin
        · intro _; simpa [Stream.on] using he
  | skip n =>
    simp only [Call.wanted] at hc ⊢
    by_cases hg : r.good = true
    · cases hsk : s.skip (if n < 2 ^ 63 - 1 then n else 2 ^ 63 - 1) with
      | some s' =>
        have hs' : s' = s.on (if n < 2 ^ 63 - 1 then n else 2 ^ 63 - 1) := (Stream.skip_some hsk).1
        subst hs'
        generalize hoff : (if n < 2 ^ 63 - 1 then n else 2 ^ 63 - 1) = off at hsk
        have hle : off ≤ n := by rw [← hoff]; split <;> omega
        have hpo : 0 < off := by rw [← hoff]; split <;> omega
        have hval : onStream (.skip n) r = (⟨if off = n then .okCompleted else .okPartial, [], off, s.pos + off⟩,
            { r with stream := some (s.on off), position := r.position + off }) := by
          simp only [onStream, StreamReader.skip, hst, hg, hoff, hsk, hp]
          simp
        rw [hval] at hpos ⊢
        simp only at hpos
        have hl : (slice s.data s.pos off).length = off := by rw [slice_length]; omega
        refine ⟨off, hle, ?_, ?_, ?_⟩
        · simp [passing, hl, Call.wanted, hpo]
        · intro hb; rw [hb] at hl; simp at hl; omega
        · rw [hl]
          refine ⟨rfl, ?_, hpos, ?_⟩
          · simp [Stream.on, hp]
          · intro h; simp [hg] at h
      | none =>
        generalize hm : (if n < 1024 then n else 1024) = m
        have hle : m ≤ n := by rw [← hm]; split <;> omega
        have hpm : 0 < m := by rw [← hm]; split <;> omega
        have hl := slice_length s.data s.pos m
        have hval : onStream (.skip n) r = (passing (.skip n) (slice s.data s.pos m) s.pos,
            { r with stream := some (s.on (slice s.data s.pos m).length), position := r.position + (slice s.data s.pos m).length, good := !r.istream || (slice s.data s.pos m).length == m }) := by
          simp only [onStream, StreamReader.skip, hst, hg, hsk, hm, passing, Call.wanted, hp, Stream.read, Stream.on]
          by_cases h0 : (slice s.data s.pos m).length = 0
          · have h1 : ¬ 0 = n := by omega
            simp [h0, h1]
          · by_cases h1 : (slice s.data s.pos m).length = n
            · have h2 : n - n = 0 := by omega
              have h3 : ¬ n = 0 := by omega
              simp [h1, h3]
            · have h2 : ¬ n - (slice s.data s.pos m).length = 0 := by omega
              have h3 : 0 < (slice s.data s.pos m).length := by omega
              simp [h0, h1, h2, h3]
        rw [hval]
        refine ⟨m, hle, rfl, ?_, ?_⟩
        · intro hb
          rw [hb] at hl; simp at hl; omega
        · refine ⟨rfl, ?_, ?_, ?_⟩
          · simp [Stream.on, hp]
          · simp only [Stream.on]; omega
          · simp only [Stream.on]
            intro h
            have : ¬ (slice s.data s.pos m).length = m := by
              intro h1; simp [h1] at h
            omega
    · simp only [Bool.not_eq_true] at hg
      have he := hbad hg
      refine ⟨n, Nat.le_refl _, ?_, fun _ => he, ?_⟩
      · have hs : slice s.data s.pos n = [] := List.eq_nil_of_length_eq_zero (by rw [slice_length]; omega)
        have h1 : ¬ 0 = n := by omega
        simp [onStream, StreamReader.skip, hst, hg, passing, Call.wanted, hp, hs, h1]
      · have hs : slice s.data s.pos n = [] := List.eq_nil_of_length_eq_zero (by rw [slice_length]; omega)
        have hval : (onStream (.skip n) r).2 = r := by
          simp [onStream, StreamReader.skip, hst, hg]
        rw [hval, hs]
        exact ⟨by simp [Stream.on, hst], by simp [Stream.on, hp], by simpa [Stream.on] using hin, fun _ => by simpa [Stream.on] using he⟩

theorem stream_answers (cs : List Call) (hcs : ∀ c ∈ cs, 0 < c.wanted) (r : StreamReader) (s : Stream) (hr : InStep r s)
    (hpos : ∀ a ∈ answers onStream cs r, a.position ≤ s.data.length) :
    ∃ evs, delivered evs = s.data.drop s.pos ∧ (s.pos = s.data.length → evs = []) ∧
      answers onStream cs r = answers onSrc cs ⟨evs, s.pos⟩ := by
  induction cs generalizing r s with
  | nil =>
    refine ⟨(s.data.drop s.pos).map some, ?_, ?_, rfl⟩
    · rw [delivered, List.filterMap_map]; exact List.filterMap_some
    · intro h; rw [h]; simp
  | cons c cs ih =>
    have hc := hcs c (by simp)
    obtain ⟨k, hk, hans, hend, hr'⟩ := onStream_passing c r s hr hc (hpos _ (by simp [answers]))
    obtain ⟨es, hdel, hemp, heq⟩ := ih (fun c hm => hcs c (by simp [hm])) _ _ hr'
      (fun a ha => hpos a (by simp [answers, ha]))
    obtain ⟨evs, hd, he, -, hs⟩ := onSrc_passing c (slice s.data s.pos k) es s.pos hc (by rw [slice_length]; omega)
      (fun hb => hemp (by have := hend hb; rw [hb]; simpa [Stream.on] using this))
    refine ⟨evs, ?_, ?_, ?_⟩
    · rw [hd, hdel]; exact (take_add_drop s.data s.pos k).symm
    · intro h
      exact he (List.eq_nil_of_length_eq_zero (by rw [slice_length]; omega))
    · rw [answers, answers, hs, hans, heq]; rfl

/-- A stream in which one cannot seek behind the end stays inside. -/
theorem stream_inside (cs : List Call) (hcs : ∀ c ∈ cs, 0 < c.wanted) (r : StreamReader) (s : Stream) (hr : InStep r s)
    (hs : s.pastEnd = false ∨ s.seekable = false) : ∀ a ∈ answers onStream cs r, a.position ≤ s.data.length := by
  induction cs generalizing r s with
  | nil => simp [answers]
  | cons c cs ih =>
    have hc := hcs c (by simp)
    have h1 : (onStream c r).1.position ≤ s.data.length := by
      obtain ⟨hst, hp, hin, hbad⟩ := hr
      cases c with
      | read n =>
        have hl := slice_length s.data s.pos n
        simp only [onStream, StreamReader.read, hst, Stream.read]
        by_cases hg : r.good = true
        · simp only [hg, if_true]
          split
          · simp only [hp]; omega
          · split <;> (simp only [hp]; omega)
        · simp only [Bool.not_eq_true] at hg
          simp [hg, hp, hin]
      | skip n =>
        by_cases hg : r.good = true
        · cases hsk : s.skip (if n < 2 ^ 63 - 1 then n else 2 ^ 63 - 1) with
          | some s' =>
            have hs2 : s.pos + (if n < 2 ^ 63 - 1 then n else 2 ^ 63 - 1) ≤ s.data.length := by
              obtain ⟨-, h4, h5⟩ := Stream.skip_some hsk
              rcases hs with h3 | h3
              · rcases h5 with h6 | h6
                · rw [h3] at h6; simp at h6
                · exact h6
              · rw [h3] at h4; simp at h4
            simp only [onStream, StreamReader.skip, hst, hg, hsk, hp]
            simpa using hs2
          | none =>
            generalize hm : (if n < 1024 then n else 1024) = m
            have hl := slice_length s.data s.pos m
            simp only [onStream, StreamReader.skip, hst, hg, hsk, Stream.read, hm]
            simp only [Bool.true_eq_false, if_false]
            split
            · simp only [hp]; omega
            · split <;> (simp only [hp]; omega)
        · simp only [Bool.not_eq_true] at hg
          simp [onStream, StreamReader.skip, hst, hg, hp, hin]
    obtain ⟨k, hk, hans, hend, hr'⟩ := onStream_passing c r s hr hc h1
    intro a ha
    rw [answers, List.mem_cons] at ha
    rcases ha with h2 | h2
    · rw [h2]; exact h1
    · exact ih (fun c hm => hcs c (by simp [hm])) _ _ hr' (by simpa [Stream.on] using hs) a h2

/-! ### MkvReader -/

theorem afterReads_file (reads : List (Int × Int)) (r : MkvReader) (s : Stream) (hf : r.file = some s) :
    (afterReads reads r).length = r.length ∧ ∃ p, (afterReads reads r).file = some { s with pos := p } := by
  induction reads generalizing r s with
  | nil => exact ⟨rfl, s.pos, hf⟩
  | cons ol rest ih =>
    obtain ⟨offset, len⟩ := ol
    have h1 : (r.read offset len).2.length = r.length ∧ ∃ p, (r.read offset len).2.file = some { s with pos := p } := by
      simp only [MkvReader.read, hf]
      split
      · exact ⟨rfl, s.pos, hf⟩
      · split
        · exact ⟨rfl, s.pos, hf⟩
        · split
          · exact ⟨rfl, s.pos, hf⟩
          · split
            · exact ⟨rfl, s.pos, hf⟩
            · refine ⟨rfl, ((s.seek offset.toNat).read len.toNat).2.pos, ?_⟩
              simp only [Stream.read, Stream.seek]; split <;> rfl
    obtain ⟨p, hp⟩ := h1.2
    obtain ⟨h2, q, hq⟩ := ih _ _ hp
    exact ⟨h2.trans h1.1, q, hq⟩

theorem mkvReader_read (r : MkvReader) (s : Stream) (hf : r.file = some s) (hs : s.seekable = true) (hl : r.length = s.data.length)
    (rd : Rdr) (hd : rd.data = s.data) (hsh : rd.short = -1) (offset len : Nat) :
    (r.read offset len).1 = rd.read offset len := by
  have h1 : ¬ ((offset : Int) < 0) := by omega
  have h2 : ¬ ((len : Int) < 0) := by omega
  rw [MkvReader.read, hf]
  simp only [h1, h2, if_false, hl]
  rw [Rdr.read]
  by_cases h3 : len = 0
  · subst h3; simp [slice]
  · have h4 : ¬ ((len : Int) = 0) := by omega
    simp only [h4, if_false, h3, false_or, hd, hsh]
    by_cases h5 : s.data.length ≤ offset
    · have h6 : (s.data.length : Int) ≤ offset := by omega
      have h7 : ¬ (offset + len ≤ s.data.length) := by omega
      simp [h6, h7]
    · have h6 : ¬ ((s.data.length : Int) ≤ offset) := by omega
      have hsl := slice_length s.data offset len
      simp only [ge_iff_le, h6, if_false, Stream.read, Stream.seek, hs, if_true, Int.toNat_natCast]
      by_cases h7 : offset + len ≤ s.data.length
      · have h8 : ¬ ((slice s.data offset len).length < len) := by omega
        simp [h7, h8]
      · have h8 : (slice s.data offset len).length < len := by omega
        simp [h7, h8]

/-! ### MkvWriter -/

theorem onSink_plan (c : WCall) (s : Sink) (plan : Nat → Option Nat) (h : s.plan s.calls = plan s.calls) :
    onSink c { s with plan := plan } = ((onSink c s).1, { (onSink c s).2 with plan := plan }) := by
  cases c with
  | write bs => simp only [onSink, Sink.write, h]; cases plan s.calls <;> rfl
  | position => rfl
  | seek p => simp only [onSink, Sink.seek, h]; cases plan s.calls <;> rfl

theorem onSink_keeps (c : WCall) (s : Sink) : (onSink c s).2.plan = s.plan ∧ s.calls ≤ (onSink c s).2.calls := by
  cases c with
  | write bs => simp only [onSink, Sink.write]; cases s.plan s.calls <;> simp
  | position => simp [onSink, Sink.position]
  | seek p => simp only [onSink, Sink.seek]; cases s.plan s.calls <;> simp

theorem writerRun_plan (cs : List WCall) (s : Sink) (plan : Nat → Option Nat) (h : ∀ i, s.calls ≤ i → s.plan i = plan i) :
    writerRun onSink cs { s with plan := plan } =
      ((writerRun onSink cs s).1, { (writerRun onSink cs s).2 with plan := plan }) := by
  induction cs generalizing s with
  | nil => rfl
  | cons c cs ih =>
    have hk := onSink_keeps c s
    rw [writerRun, onSink_plan c s plan (h _ (Nat.le_refl _)), ih (onSink c s).2 (by
      intro i hi; rw [hk.1]; exact h i (Nat.le_trans hk.2 hi))]
    rfl

theorem writer_answers (cs : List WCall) (f : OutFile) (h : NeverBehind cs f) (k : Nat) :
    ∃ plan, (writerRun onSink cs ⟨f.data, f.pos, k, plan⟩).1 = (writerRun onFile cs f).1 ∧
      (writerRun onSink cs ⟨f.data, f.pos, k, plan⟩).2.data = (writerRun onFile cs f).2.data ∧
      (writerRun onSink cs ⟨f.data, f.pos, k, plan⟩).2.pos = (writerRun onFile cs f).2.pos := by
  induction cs generalizing f k with
  | nil => exact ⟨fun _ => none, rfl, rfl, rfl⟩
  | cons c cs ih =>
    have hin : f.pos ≤ f.data.length := h [] (List.nil_prefix)
    have hnb : NeverBehind cs (onFile c f).2 := by
      intro pre hp
      exact h (c :: pre) (List.cons_prefix_cons.mpr ⟨rfl, hp⟩)
    -- what the plan says of the first call
    have key : ∃ (x : Option Nat) (k' : Nat), k ≤ k' ∧ ∀ plan : Nat → Option Nat, plan k = x →
        onSink c ⟨f.data, f.pos, k, plan⟩ = ((onFile c f).1, ⟨(onFile c f).2.data, (onFile c f).2.pos, k', plan⟩) ∧ (k' = k ∨ k' = k + 1) ∧
        (k' = k → c = .position) := by
      cases c with
      | position => exact ⟨none, k, Nat.le_refl _, fun plan _ => ⟨rfl, Or.inl rfl, fun _ => rfl⟩⟩
      | seek p =>
        refine ⟨f.faults f.calls, k + 1, by omega, fun plan hx => ?_⟩
        have h1 : ¬ ((p : Int) < 0) := by omega
        simp only [onSink, Sink.seek, hx, onFile, mkvSeek, OutFile.fseek, Option.getD]
        cases f.faults f.calls with
        | none => simp [h1]
        | some n => simp
      | write bs =>
        by_cases h0 : bs.length = 0
        · have hb : bs = [] := List.eq_nil_of_length_eq_zero h0
          subst hb
          refine ⟨none, k + 1, by omega, fun plan hx => ?_⟩
          have : overwrite f.data f.pos [] = f.data := by simp [overwrite]
          simp [onSink, Sink.write, hx, onFile, mkvWrite, this]
        · have hz : f.data ++ List.replicate (f.pos - f.data.length) 0 = f.data := by
            have : f.pos - f.data.length = 0 := by omega
            simp [this]
          cases hfl : f.faults f.calls with
          | none =>
            refine ⟨none, k + 1, by omega, fun plan hx => ?_⟩
            simp [onSink, Sink.write, hx, onFile, mkvWrite, OutFile.fwrite, h0, hfl, hz]
          | some n =>
            refine ⟨some (min n (bs.length - 1)), k + 1, by omega, fun plan hx => ?_⟩
            have hne : ¬ (min n (bs.length - 1) = bs.length) := by omega
            have hmm : min (min n (bs.length - 1)) bs.length = min n (bs.length - 1) := by omega
            simp [onSink, Sink.write, hx, onFile, mkvWrite, OutFile.fwrite, h0, hfl, hz, List.length_take, hmm, hne]
    obtain ⟨x, k', hk, hkey⟩ := key
    obtain ⟨plan', h1, h2, h3⟩ := ih (onFile c f).2 hnb k'
    by_cases hkk : k' = k
    · have hpos := (hkey (fun _ => x) rfl).2.2 hkk
      subst hpos
      subst hkk
      refine ⟨plan', ?_, ?_, ?_⟩
      · exact congrArg (List.cons _) h1
      · exact h2
      · exact h3
    · have hag : ∀ i, k' ≤ i → plan' i = (fun i => if i = k then x else plan' i) i := by
        intro i hi
        have : ¬ i = k := by omega
        simp [this]
      have hrun := writerRun_plan cs ⟨(onFile c f).2.data, (onFile c f).2.pos, k', plan'⟩ (fun i => if i = k then x else plan' i) hag
      have hstep := (hkey (fun i => if i = k then x else plan' i) (by simp)).1
      refine ⟨fun i => if i = k then x else plan' i, ?_, ?_, ?_⟩
      · rw [writerRun, hstep]; simp only [writerRun]
        rw [show (writerRun onSink cs ⟨(onFile c f).2.data, (onFile c f).2.pos, k', fun i => if i = k then x else plan' i⟩) = _ from hrun, h1]
      · rw [writerRun, hstep]; simp only [writerRun]
        rw [show (writerRun onSink cs ⟨(onFile c f).2.data, (onFile c f).2.pos, k', fun i => if i = k then x else plan' i⟩) = _ from hrun]
        exact h2
      · rw [writerRun, hstep]; simp only [writerRun]
        rw [show (writerRun onSink cs ⟨(onFile c f).2.data, (onFile c f).2.pos, k', fun i => if i = k then x else plan' i⟩) = _ from hrun]
        exact h3

theorem writer_answers_ok (cs : List WCall) (f : OutFile) (hf : ∀ i, f.faults i = none) (h : NeverBehind cs f) (k : Nat) :
    (writerRun onSink cs ⟨f.data, f.pos, k, fun _ => none⟩).1 = (writerRun onFile cs f).1 ∧
      (writerRun onSink cs ⟨f.data, f.pos, k, fun _ => none⟩).2.data = (writerRun onFile cs f).2.data ∧
      (writerRun onSink cs ⟨f.data, f.pos, k, fun _ => none⟩).2.pos = (writerRun onFile cs f).2.pos := by
  induction cs generalizing f k with
  | nil => exact ⟨rfl, rfl, rfl⟩
  | cons c cs ih =>
    have hin : f.pos ≤ f.data.length := h [] (List.nil_prefix)
    have hnb : NeverBehind cs (onFile c f).2 := by
      intro pre hp
      exact h (c :: pre) (List.cons_prefix_cons.mpr ⟨rfl, hp⟩)
    have key : ∃ k', onSink c ⟨f.data, f.pos, k, fun _ => none⟩ = ((onFile c f).1, ⟨(onFile c f).2.data, (onFile c f).2.pos, k', fun _ => none⟩) ∧
        ∀ i, (onFile c f).2.faults i = none := by
      cases c with
      | position => exact ⟨k, rfl, hf⟩
      | seek p =>
        have h1 : ¬ ((p : Int) < 0) := by omega
        exact ⟨k + 1, by simp [onSink, Sink.seek, onFile, mkvSeek, OutFile.fseek, hf, h1], by simpa [onFile, mkvSeek, OutFile.fseek, hf, h1] using hf⟩
      | write bs =>
        by_cases h0 : bs.length = 0
        · have hb : bs = [] := List.eq_nil_of_length_eq_zero h0
          subst hb
          have : overwrite f.data f.pos [] = f.data := by simp [overwrite]
          exact ⟨k + 1, by simp [onSink, Sink.write, onFile, mkvWrite, this], by simpa [onFile, mkvWrite] using hf⟩
        · have hz : f.data ++ List.replicate (f.pos - f.data.length) 0 = f.data := by
            have : f.pos - f.data.length = 0 := by omega
            simp [this]
          exact ⟨k + 1, by simp [onSink, Sink.write, onFile, mkvWrite, OutFile.fwrite, h0, hf, hz], by simpa [onFile, mkvWrite, OutFile.fwrite, h0] using hf⟩
    obtain ⟨k', hstep, hfl⟩ := key
    obtain ⟨h1, h2, h3⟩ := ih (onFile c f).2 hfl hnb k'
    rw [writerRun, hstep]
    exact ⟨congrArg (List.cons _) h1, h2, h3⟩

end Verif.Io

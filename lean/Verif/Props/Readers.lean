/-
C78: the readers and writers that come with the library stand for the file.
-/
import Verif.Lemmas.Readers

namespace Verif.Io
open Verif Web Par

/-! ### webm_parser -/

/-- Whatever is asked of a `BufferReader`, it answers as the reader that has all these bytes at hand. -/
theorem C78_buffer (data : Bytes) (calls : List Call) (hcalls : ∀ c ∈ calls, 0 < c.wanted) :
    answers onBuffer calls { data := data } = answers onSrc calls { evs := data.map some } := by
  have := buffer_answers calls hcalls { data := data }
  simpa using this

/-- Whatever is asked of a `FileReader` or `IstreamReader`, over a file, a pipe or a string stream, it answers as a reader that
delivers these bytes, in pieces: provided that nothing is skipped behind the end of the file. -/
theorem C78_stream (data : Bytes) (seekable pastEnd istream : Bool) (calls : List Call) (hcalls : ∀ c ∈ calls, 0 < c.wanted)
    (hin : ∀ a ∈ answers onStream calls (freshReader data seekable pastEnd istream), a.position ≤ data.length) :
    ∃ evs, delivered evs = data ∧
      answers onStream calls (freshReader data seekable pastEnd istream) = answers onSrc calls { evs := evs } := by
  obtain ⟨evs, h1, -, h2⟩ := stream_answers calls hcalls (freshReader data seekable pastEnd istream)
    { data := data, seekable := seekable, pastEnd := pastEnd } ⟨rfl, rfl, Nat.zero_le _, fun h => by cases h⟩ hin
  exact ⟨evs, by simpa using h1, h2⟩

/-- And over a pipe or a string stream nothing can be skipped behind the end. -/
theorem C78_stream_pipe (data : Bytes) (seekable pastEnd istream : Bool) (hp : pastEnd = false ∨ seekable = false) (calls : List Call)
    (hcalls : ∀ c ∈ calls, 0 < c.wanted) :
    ∀ a ∈ answers onStream calls (freshReader data seekable pastEnd istream), a.position ≤ data.length :=
  stream_inside calls hcalls (freshReader data seekable pastEnd istream)
    { data := data, seekable := seekable, pastEnd := pastEnd } ⟨rfl, rfl, Nat.zero_le _, fun h => by cases h⟩ hp

/-- *But* over a file: whatever is skipped has been skipped, be the file long enough or not. -/
theorem C78_skip_past_end (data : Bytes) (istream : Bool) (n : Nat) (hn : 0 < n) (hlt : n < 2 ^ 63 - 1) :
    answers onStream [.skip n] (freshReader data true true istream) = [⟨.okCompleted, [], n, n⟩] := by
  have h1 : 0 + n < 2 ^ 63 := by omega
  simp only [answers, onStream, freshReader, StreamReader.skip, Stream.skip, hlt, h1, if_true, true_or, and_self]
  simp

/-- So a file that was cut off in what is skipped is taken for a whole one: which the reader with these bytes would notice. -/
theorem C78_cut_unnoticed (data : Bytes) (istream : Bool) (n : Nat) (hn : data.length < n) (hlt : n < 2 ^ 63 - 1)
    (evs : List (Option UInt8)) (hevs : delivered evs = data) :
    answers onStream [.skip n] (freshReader data true true istream) ≠ answers onSrc [.skip n] { evs := evs } := by
  rw [C78_skip_past_end data istream n (by omega) hlt]
  intro h
  have h2 : (onSrc (.skip n) { evs := evs }).1.number = n := by
    simp only [answers, List.cons.injEq, and_true] at h
    rw [← h]
  have h3 : ∀ (m : Nat) (es : List (Option UInt8)), (takeAvail m es).1.length ≤ (delivered es).length := by
    intro m es
    induction es generalizing m with
    | nil => cases m <;> simp [takeAvail]
    | cons e es ih =>
      cases m with
      | zero => simp [takeAvail]
      | succ m =>
        cases e with
        | none => simp [takeAvail]
        | some b =>
          have := ih m
          simp only [takeAvail, delivered, List.filterMap_cons, id, List.length_cons]
          simp only [delivered] at this
          omega
  have h4 : (onSrc (.skip n) { evs := evs }).1.number ≤ data.length := by
    have h5 : (Src.read { evs := evs } n).2.1 = (takeAvail n evs).1 := by
      simp only [Src.read]
      repeat' split
      all_goals rfl
    simp only [onSrc, h5, ← hevs]
    exact h3 n evs
  omega

/-- And over a pipe no more than 1024 bytes are skipped by one call. -/
theorem C78_pipe_skips_little (data : Bytes) (pastEnd istream : Bool) (n : Nat) (hn : 1024 < n) (hd : 1024 ≤ data.length) :
    answers onStream [.skip n] (freshReader data false pastEnd istream) = [⟨.okPartial, [], 1024, 1024⟩] := by
  have h1 : ¬ n < 1024 := by omega
  have h2 : (slice data 0 1024).length = 1024 := by rw [slice_length]; omega
  have h3 : ¬ n - 1024 = 0 := by omega
  simp [answers, onStream, freshReader, StreamReader.skip, Stream.skip, Stream.read, h1, h2, h3]

/-- Non-vacuity: five bytes in a file, read and skipped to the end and not behind. -/
example : ∀ a ∈ answers onStream [.read 2, .skip 2, .read 4, .read 1] (freshReader [1, 2, 3, 4, 5] true true true), a.position ≤ 5 := by
  decide +kernel

/-- Non-vacuity: what is answered then. -/
example : answers onStream [.read 2, .skip 2, .read 4, .read 1] (freshReader [1, 2, 3, 4, 5] true true true) =
    [⟨.okCompleted, [1, 2], 2, 2⟩, ⟨.okCompleted, [], 2, 4⟩, ⟨.okPartial, [5], 1, 5⟩, ⟨.endOfFile, [], 0, 5⟩] := by
  decide +kernel

/-! ### mkvparser -/

/-- The reader that mkvparser is modelled with, for a whole file. -/
def wholeFile (data : Bytes) : Rdr := { data := data, short := -1, short_ne := by decide, total := data.length }

/-- `MkvReader` opens what can be opened and has a length. -/
theorem C78_mkv_open (file : Option Stream) : (MkvReader.open {} file).1 = 0 ↔ ∃ s, file = some s ∧ s.seekable = true := by
  cases file with
  | none => simp [MkvReader.open]
  | some s =>
    cases hs : s.seekable with
    | true =>
      have : ¬ ((s.data.length : Int) < 0) := by omega
      simp [MkvReader.open, Stream.length, hs, this]
    | false => simp [MkvReader.open, Stream.length, hs]

/-- Whatever was read before, an open `MkvReader` answers as the reader of the whole file, and a call with a negative number fails;
it says how long the file is, and that all of it is there. -/
theorem C78_mkv_reader (s : Stream) (hs : s.seekable = true) (reads : List (Int × Int)) :
    (∀ offset len : Nat, ((afterReads reads (MkvReader.open {} (some s)).2).read offset len).1 = (wholeFile s.data).read offset len) ∧
    (∀ offset len : Int, offset < 0 ∨ len < 0 →
      ((afterReads reads (MkvReader.open {} (some s)).2).read offset len).1 = .error (-1)) ∧
    (afterReads reads (MkvReader.open {} (some s)).2).getLength = (0, some ((wholeFile s.data).total, (s.data.length : Int))) := by
  have h0 : ¬ ((s.data.length : Int) < 0) := by omega
  have hop : (MkvReader.open {} (some s)).2 = { file := some (s.seek 0), length := s.data.length } := by
    simp [MkvReader.open, Stream.length, hs, h0]
  have hseek : s.seek 0 = { s with pos := 0 } := by simp [Stream.seek, hs]
  rw [hop]
  obtain ⟨hl, p, hf⟩ := afterReads_file reads { file := some (s.seek 0), length := s.data.length } (s.seek 0) rfl
  rw [hseek] at hl hf ⊢
  refine ⟨?_, ?_, ?_⟩
  · intro offset len
    exact mkvReader_read _ _ hf (by simpa using hs) (by simpa using hl) (wholeFile s.data) rfl rfl offset len
  · intro offset len h
    rw [MkvReader.read, hf]
    rcases h with h | h
    · simp [h]
    · by_cases h2 : offset < 0 <;> simp [h2, h]
  · rw [MkvReader.getLength, hf]
    simp [hl, wholeFile]

/-- Non-vacuity: a piece at the end, one too long, and one behind the end. -/
example : ((afterReads [(0, 3)] (MkvReader.open {} (some { data := [1, 2, 3, 4] })).2).read 2 2).1.toOption = some [3, 4] ∧
    ((afterReads [(0, 3)] (MkvReader.open {} (some { data := [1, 2, 3, 4] })).2).read 2 3).1.toOption = none ∧
    ((afterReads [(0, 3)] (MkvReader.open {} (some { data := [1, 2, 3, 4] })).2).read 9 0).1.toOption = some [] := by
  decide +kernel

/-! ### mkvmuxer -/

/-- Whatever is asked of an open `MkvWriter`, and whichever calls of the C library fail, it answers as the output that the muxer is
modelled with, some of whose calls fail; and the file is the same then.  (As long as nothing is written behind the end.) -/
theorem C78_mkv_writer (f : OutFile) (calls : List WCall) (h : NeverBehind calls f) :
    ∃ plan, (writerRun onSink calls ⟨f.data, f.pos, 0, plan⟩).1 = (writerRun onFile calls f).1 ∧
      (writerRun onSink calls ⟨f.data, f.pos, 0, plan⟩).2.data = (writerRun onFile calls f).2.data ∧
      (writerRun onSink calls ⟨f.data, f.pos, 0, plan⟩).2.pos = (writerRun onFile calls f).2.pos :=
  writer_answers calls f h 0

/-- And if none fails, as one no call of which fails. -/
theorem C78_mkv_writer_ok (f : OutFile) (hf : ∀ i, f.faults i = none) (calls : List WCall) (h : NeverBehind calls f) :
    (writerRun onSink calls ⟨f.data, f.pos, 0, fun _ => none⟩).1 = (writerRun onFile calls f).1 ∧
      (writerRun onSink calls ⟨f.data, f.pos, 0, fun _ => none⟩).2.data = (writerRun onFile calls f).2.data ∧
      (writerRun onSink calls ⟨f.data, f.pos, 0, fun _ => none⟩).2.pos = (writerRun onFile calls f).2.pos :=
  writer_answers_ok calls f hf h 0

/-- A closed writer writes nothing, and says so. -/
theorem C78_mkv_writer_closed (bs : Bytes) (p : Int) : mkvWrite none bs = (-1, none) ∧ mkvSeek none p = (-1, none) ∧ mkvPosition none = 0 :=
  ⟨rfl, rfl, rfl⟩

/-- Non-vacuity: a header is written, something behind it, and the header mended; the third `fwrite` stores a byte and fails. -/
example : NeverBehind [.write [1, 2], .write [3], .position, .seek 0, .write [7, 8], .seek 3] { faults := fun n => if n = 3 then some 1 else none } := by
  intro pre hpre
  have h1 := hpre.length_le
  rw [List.prefix_iff_eq_take.mp hpre]
  generalize pre.length = k at h1
  simp only [List.length_cons, List.length_nil] at h1
  match k, h1 with
  | 0, _ | 1, _ | 2, _ | 3, _ | 4, _ | 5, _ | 6, _ => decide +kernel

example : (writerRun onFile [.write [1, 2], .write [3], .position, .seek 0, .write [7, 8], .seek 3]
      { faults := fun n => if n = 3 then some 1 else none }).1 = [0, 0, 3, 0, -1, 0] ∧
    (writerRun onFile [.write [1, 2], .write [3], .position, .seek 0, .write [7, 8], .seek 3]
      { faults := fun n => if n = 3 then some 1 else none }).2.data = [7, 2, 3] := by
  decide +kernel

end Verif.Io

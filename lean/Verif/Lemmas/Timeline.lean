/-
Files of the muxer as documents, and what an application sees of them.
-/
import Verif.Lemmas.WebmDocTree
import Verif.Lemmas.MuxerHeaders
import Verif.Lemmas.Walk
import Verif.Spec.Timeline
import Verif.Spec.Segment

namespace Verif.Spec
open Verif Verif.Web Verif.Mux

/-! ### Well-formed trees without the size conditions -/

/-- `WellFormed`, where every size field is the shortest one or has eight bytes. -/
def Tree.Shaped : Kids → Bool → Option Nat → Tree → Prop
  | _, _, _, .nil => True
  | ks, sized, after, .leaf id w p next =>
    IsId (byteWidth id) id ∧ (w = 8 ∨ w = sizeWidth p.data.length) ∧
    (match ks.entry id with
      | some (_, _, .leaf l) => p.Allowed l
      | some (_, _, .master ..) => False
      | none => sized = true ∧ ∃ b, p = .bytes b) ∧
    next.Shaped ks sized after
  | ks, sized, after, .node id w known kids next =>
    IsId (byteWidth id) id ∧ (w = 8 ∨ known = true ∧ w = sizeWidth kids.bytes.length) ∧
    (match ks.entry id with
      | some (_, _, .master r ks') =>
        if known then kids.Shaped ks' true none
        else sized = false ∧ r.forward = true ∧ (∀ i ∈ next.follow after, ks'.entry i = none) ∧
          kids.Shaped ks' false (next.follow after)
      | _ => False) ∧
    next.Shaped ks sized after

theorem width_ok {w n : Nat} (h : w = 8 ∨ w = sizeWidth n) (hn : n + 1 < 2 ^ 56) : 1 ≤ w ∧ w ≤ 8 ∧ n + 1 < 2 ^ (7 * w) := by
  rcases h with rfl | rfl
  · exact ⟨by decide, by decide, hn⟩
  · have hb := getCodedUIntSize_bounds n
    have hf := getCodedUIntSize_fits hn
    rw [getCodedUIntSize_eq] at hb hf
    exact ⟨hb.1, hb.2, hf⟩

theorem Tree.Shaped.wellFormed {t : Tree} : ∀ {ks : Kids} {sized : Bool} {after : Option Nat}, t.Shaped ks sized after →
    t.bytes.length + 1 < 2 ^ 56 → t.WellFormed ks sized after := by
  induction t with
  | nil => intros; trivial
  | leaf id w p next ih =>
    intro ks sized after ⟨h1, h2, h3, h4⟩ hb
    simp only [Tree.bytes, List.length_append] at hb
    obtain ⟨a, b, c⟩ := width_ok h2 (by omega)
    exact ⟨h1, a, b, c, h3, ih h4 (by omega)⟩
  | node id w known kids next ihk ih =>
    intro ks sized after ⟨h1, h2, h3, h4⟩ hb
    simp only [Tree.bytes, List.length_append] at hb
    obtain ⟨a, b, c⟩ := width_ok (w := w) (n := kids.bytes.length) (by
      rcases h2 with h | h
      · exact .inl h
      · exact .inr h.2) (by omega)
    refine ⟨h1, a, b, ?_, ih h4 (by omega)⟩
    cases he : ks.entry id with
    | none => rw [he] at h3; exact h3.elim
    | some x =>
      obtain ⟨st, co, g⟩ := x
      rw [he] at h3
      cases g with
      | leaf l => exact h3.elim
      | master r ks' =>
        cases known with
        | true => exact ⟨c, ihk h3 (by omega)⟩
        | false => exact ⟨h3.1, h3.2.1, h3.2.2.1, ihk h3.2.2.2 (by omega)⟩

theorem Tree.follow_append (a b : Tree) (after : Option Nat) : (a.append b).follow after = a.follow (b.follow after) := by
  cases a <;> rfl

theorem Tree.Shaped.append {a b : Tree} {ks : Kids} {sized : Bool} {after : Option Nat}
    (ha : a.Shaped ks sized (b.follow after)) (hb : b.Shaped ks sized after) : (a.append b).Shaped ks sized after := by
  induction a with
  | nil => exact hb
  | leaf id w p next ih => exact ⟨ha.1, ha.2.1, ha.2.2.1, ih ha.2.2.2⟩
  | node id w known kids next ihk ih =>
    refine ⟨ha.1, ha.2.1, ?_, ih ha.2.2.2⟩
    rw [Tree.follow_append]
    exact ha.2.2.1

/-- An element may stand there whatever its neighbours. -/
def Tree.Fine (ks : Kids) (t : Tree) : Prop := ∀ sized after, t.Shaped ks sized after

/-- The same inside an element of known size. -/
def Tree.FineIn (ks : Kids) (t : Tree) : Prop := ∀ after, t.Shaped ks true after

theorem Tree.Fine.inside {ks : Kids} {t : Tree} (h : t.Fine ks) : t.FineIn ks := fun a => h true a

theorem Tree.Fine.nil {ks : Kids} : Tree.nil.Fine ks := fun _ _ => trivial
theorem Tree.FineIn.nil {ks : Kids} : Tree.nil.FineIn ks := fun _ => trivial

theorem Tree.Fine.append {ks : Kids} {a b : Tree} (ha : a.Fine ks) (hb : b.Fine ks) : (a.append b).Fine ks :=
  fun s x => (ha s _).append (hb s x)
theorem Tree.FineIn.append {ks : Kids} {a b : Tree} (ha : a.FineIn ks) (hb : b.FineIn ks) : (a.append b).FineIn ks :=
  fun x => (ha _).append (hb x)

/-- The children table of a parser. -/
def kidsOf : Gram → Kids
  | .master _ ks => ks
  | .leaf _ => .nil

/-- A parser for an element with children. -/
def IsMaster : Gram → Prop
  | .master .. => True
  | .leaf _ => False

theorem plain_fine {ks : Kids} {id : Nat} {b : Bytes} {st co : Bool} {l : Leaf} (he : ks.entry id = some (st, co, .leaf l))
    (hi : IsId (byteWidth id) id) (ha : (Payload.bytes b).Allowed l) : (plain id b).Fine ks := by
  intro s x
  refine ⟨hi, .inr rfl, ?_, trivial⟩
  rw [he]
  exact ha

theorem plain_unknown {ks : Kids} {id : Nat} {b : Bytes} (he : ks.entry id = none) (hi : IsId (byteWidth id) id) :
    (plain id b).FineIn ks := by
  intro x
  refine ⟨hi, .inr rfl, ?_, trivial⟩
  rw [he]
  exact ⟨rfl, b, rfl⟩

theorem group_fine {ks : Kids} {id : Nat} {k : Tree} {st co : Bool} (g : Gram)
    (he : ks.entry id = some (st, co, g)) (hm : IsMaster g) (hi : IsId (byteWidth id) id) (hk : k.FineIn (kidsOf g)) :
    (group id k).Fine ks := by
  intro s x
  refine ⟨hi, .inr ⟨rfl, rfl⟩, ?_, trivial⟩
  rw [he]
  cases g with
  | leaf l => exact hm.elim
  | master r ks' => exact hk none

theorem groupIf_fine {ks : Kids} {id : Nat} {k : Tree} {st co : Bool} (g : Gram)
    (he : ks.entry id = some (st, co, g)) (hm : IsMaster g) (hi : IsId (byteWidth id) id) (hk : k.FineIn (kidsOf g)) :
    (groupIf id k).Fine ks := by
  cases k with
  | nil => exact .nil
  | leaf => exact group_fine g he hm hi hk
  | node => exact group_fine g he hm hi hk

theorem optional_fine {α : Type} {ks : Kids} {f : α → Tree} {o : Option α} (h : ∀ a, (f a).FineIn ks) :
    (Spec.optional f o).FineIn ks := by
  cases o with
  | none => exact .nil
  | some a => exact h a

theorem each_fine {α : Type} {ks : Kids} {f : α → Tree} {xs : List α} (h : ∀ a, (f a).FineIn ks) :
    (each f xs).FineIn ks := by
  induction xs with
  | nil => exact .nil
  | cons x xs ih => exact (h x).append ih

theorem seq_cons_fine {ks : Kids} {t : Tree} {ts : List Tree} (h : t.FineIn ks) (hs : (seq ts).FineIn ks) :
    (seq (t :: ts)).FineIn ks := h.append hs

theorem seq_nil_fine {ks : Kids} : (seq []).FineIn ks := .nil

theorem width64 (v : UInt64) : byteWidth v.toNat ≤ 8 := by
  rw [byteWidth_eq v.toNat_lt]
  exact (getUIntSize_bounds _).2

theorem number_fine {ks : Kids} {id : Nat} {v : UInt64} {st co : Bool} (he : ks.entry id = some (st, co, .leaf .uint))
    (hi : IsId (byteWidth id) id) : (number id v).Fine ks := by
  refine plain_fine he hi ?_
  show (beBytes _ _).length ≤ 8
  rw [beBytes_length]
  exact width64 v

theorem numberIf_fine {ks : Kids} {id : Nat} {v : UInt64} {st co : Bool} (he : ks.entry id = some (st, co, .leaf .uint))
    (hi : IsId (byteWidth id) id) : (numberIf id v).Fine ks := by
  unfold numberIf
  split
  · exact .nil
  · exact number_fine he hi

theorem numberSet_fine {ks : Kids} {id : Nat} {v : UInt64} {st co : Bool} (he : ks.entry id = some (st, co, .leaf .uint))
    (hi : IsId (byteWidth id) id) : (numberSet id v).Fine ks := by
  unfold numberSet
  split
  · exact .nil
  · exact number_fine he hi

theorem float_fine {ks : Kids} {id : Nat} {v : UInt32} {st co : Bool} (he : ks.entry id = some (st, co, .leaf .float))
    (hi : IsId (byteWidth id) id) : (float id v).Fine ks := by
  refine plain_fine he hi ?_
  show (beBytes _ _).length = 0 ∨ _
  rw [beBytes_length]
  exact .inr (.inl rfl)

theorem text_fine {ks : Kids} {id : Nat} {v : Option Bytes} {st co : Bool} {l : Leaf}
    (he : ks.entry id = some (st, co, .leaf l)) (hl : l = .str ∨ l = .bin)
    (hi : IsId (byteWidth id) id) : (text id v).Fine ks := by
  cases v with
  | none => exact .nil
  | some b =>
    refine plain_fine he hi ?_
    rcases hl with rfl | rfl <;> trivial

theorem luminance_fine {ks : Kids} {id : Nat} {v : UInt32} {st co : Bool} (he : ks.entry id = some (st, co, .leaf .float))
    (hi : IsId (byteWidth id) id) : (luminance id v).Fine ks := by
  unfold luminance
  split
  · exact .nil
  · exact float_fine he hi

local macro "idOk" : term => `(by unfold IsId; decide +kernel)

theorem encoding_fine (e : ContentEncoding) : (encodingTree e).Fine (kidsOf gContentEncodings) :=
  group_fine gContentEncoding rfl trivial idOk <|
  seq_cons_fine (number_fine rfl idOk).inside <|
  seq_cons_fine (number_fine rfl idOk).inside <|
  seq_cons_fine (number_fine rfl idOk).inside <|
  seq_cons_fine (group_fine gContentEncryption rfl trivial idOk <| seq_cons_fine (number_fine rfl idOk).inside <|
  seq_cons_fine (text_fine rfl (.inr rfl) idOk).inside <|
  seq_cons_fine (group_fine gContentEncAesSettings rfl trivial idOk <| (number_fine rfl idOk).inside).inside seq_nil_fine).inside seq_nil_fine

theorem chroma_fine {ks : Kids} {x y : Nat} {a b a' b' : Bool} (hx : ks.entry x = some (a, b, .leaf .float))
    (hy : ks.entry y = some (a', b', .leaf .float)) (ix : IsId (byteWidth x) x) (iy : IsId (byteWidth y) y)
    (c : Chromaticity) : (chromaTree x y c).FineIn ks :=
  seq_cons_fine (float_fine hx ix).inside <| seq_cons_fine (float_fine hy iy).inside seq_nil_fine

theorem mastering_fine (m : MasteringMetadata) : (masteringTree m).FineIn (kidsOf gColour) :=
  (groupIf_fine gMasteringMetadata rfl trivial idOk <|
  seq_cons_fine (luminance_fine rfl idOk).inside <|
  seq_cons_fine (luminance_fine rfl idOk).inside <|
  seq_cons_fine (optional_fine (chroma_fine rfl rfl idOk idOk)) <|
  seq_cons_fine (optional_fine (chroma_fine rfl rfl idOk idOk)) <|
  seq_cons_fine (optional_fine (chroma_fine rfl rfl idOk idOk)) <|
  seq_cons_fine (optional_fine (chroma_fine rfl rfl idOk idOk)) seq_nil_fine).inside

theorem colour_fine (c : Colour) : (colourTree c).FineIn (kidsOf gVideo) :=
  (groupIf_fine gColour rfl trivial idOk <|
  seq_cons_fine (numberSet_fine rfl idOk).inside <|
  seq_cons_fine (numberSet_fine rfl idOk).inside <|
  seq_cons_fine (numberSet_fine rfl idOk).inside <|
  seq_cons_fine (numberSet_fine rfl idOk).inside <|
  seq_cons_fine (numberSet_fine rfl idOk).inside <|
  seq_cons_fine (numberSet_fine rfl idOk).inside <|
  seq_cons_fine (numberSet_fine rfl idOk).inside <|
  seq_cons_fine (numberSet_fine rfl idOk).inside <|
  seq_cons_fine (numberSet_fine rfl idOk).inside <|
  seq_cons_fine (numberSet_fine rfl idOk).inside <|
  seq_cons_fine (numberSet_fine rfl idOk).inside <|
  seq_cons_fine (numberSet_fine rfl idOk).inside <|
  seq_cons_fine (numberSet_fine rfl idOk).inside <|
  seq_cons_fine (optional_fine mastering_fine) seq_nil_fine).inside

theorem projection_fine (p : Projection) : (projectionTree p).FineIn (kidsOf gVideo) :=
  (group_fine gProjection rfl trivial idOk <|
  seq_cons_fine (number_fine rfl idOk).inside <|
  seq_cons_fine (text_fine rfl (.inr rfl) idOk).inside <|
  seq_cons_fine (float_fine rfl idOk).inside <|
  seq_cons_fine (float_fine rfl idOk).inside <|
  seq_cons_fine (float_fine rfl idOk).inside seq_nil_fine).inside

theorem unknown_fine {ks : Kids} {id : Nat} {v : Option Bytes} (he : ks.entry id = none) (hi : IsId (byteWidth id) id) :
    (text id v).FineIn ks := by
  cases v with
  | none => exact .nil
  | some b => exact plain_unknown he hi

theorem unknownNumber_fine {ks : Kids} {id : Nat} {v : UInt64} (he : ks.entry id = none) (hi : IsId (byteWidth id) id) :
    (numberIf id v).FineIn ks := by
  unfold numberIf
  split
  · exact .nil
  · exact plain_unknown he hi

theorem video_fine (v : VideoPart) : (videoTree v).FineIn (kidsOf gTrackEntry) :=
  (group_fine gVideo rfl trivial idOk <|
  seq_cons_fine (number_fine rfl idOk).inside <|
  seq_cons_fine (number_fine rfl idOk).inside <|
  seq_cons_fine (numberIf_fine rfl idOk).inside <|
  seq_cons_fine (numberIf_fine rfl idOk).inside <|
  seq_cons_fine (numberIf_fine rfl idOk).inside <|
  seq_cons_fine (numberIf_fine rfl idOk).inside <|
  seq_cons_fine (numberIf_fine rfl idOk).inside <|
  seq_cons_fine (numberIf_fine rfl idOk).inside <|
  seq_cons_fine (numberIf_fine rfl idOk).inside <|
  seq_cons_fine (numberIf_fine rfl idOk).inside <|
  seq_cons_fine (unknown_fine rfl idOk) <|
  seq_cons_fine (optional_fine fun _ => (float_fine rfl idOk).inside) <|
  seq_cons_fine (optional_fine colour_fine) <|
  seq_cons_fine (optional_fine projection_fine) seq_nil_fine).inside

theorem audio_fine (a : AudioPart) : (audioTree a).FineIn (kidsOf gTrackEntry) :=
  (group_fine gAudio rfl trivial idOk <|
  seq_cons_fine (float_fine rfl idOk).inside <|
  seq_cons_fine (number_fine rfl idOk).inside <|
  seq_cons_fine (numberIf_fine rfl idOk).inside seq_nil_fine).inside

theorem part_fine (p : TrackPart) : (partTree p).FineIn (kidsOf gTrackEntry) := by
  cases p with
  | plain => exact .nil
  | video v => exact video_fine v
  | audio a => exact audio_fine a

theorem track_fine (t : Track) : (trackTree t).FineIn (kidsOf gTracks) :=
  (group_fine gTrackEntry rfl trivial idOk <|
  seq_cons_fine (number_fine rfl idOk).inside <|
  seq_cons_fine (number_fine rfl idOk).inside <|
  seq_cons_fine (number_fine rfl idOk).inside <|
  seq_cons_fine (unknownNumber_fine rfl idOk) <|
  seq_cons_fine (numberIf_fine rfl idOk).inside <|
  seq_cons_fine (numberIf_fine rfl idOk).inside <|
  seq_cons_fine (numberIf_fine rfl idOk).inside <|
  seq_cons_fine (text_fine rfl (.inl rfl) idOk).inside <|
  seq_cons_fine (text_fine rfl (.inr rfl) idOk).inside <|
  seq_cons_fine (text_fine rfl (.inl rfl) idOk).inside <|
  seq_cons_fine (text_fine rfl (.inl rfl) idOk).inside <|
  seq_cons_fine (groupIf_fine gContentEncodings rfl trivial idOk <| each_fine fun e => (encoding_fine e).inside).inside <|
  seq_cons_fine (part_fine t.part) seq_nil_fine).inside

theorem tracks_fine (ts : List Track) : (tracksTree ts).Fine (kidsOf gSegment) :=
  group_fine gTracks rfl trivial idOk <| each_fine track_fine

theorem display_fine (d : Display) : (displayTree d).FineIn (kidsOf (gChapterAtom maxRecursionDepth true)) :=
  (group_fine gChapterDisplay rfl trivial idOk <|
  seq_cons_fine (text_fine rfl (.inl rfl) idOk).inside <|
  seq_cons_fine (text_fine rfl (.inl rfl) idOk).inside <|
  seq_cons_fine (text_fine rfl (.inl rfl) idOk).inside seq_nil_fine).inside

theorem chapter_fine (c : Chapter) : (chapterTree c).FineIn (kidsOf gEditionEntry) :=
  (group_fine (gChapterAtom maxRecursionDepth true) rfl trivial idOk <|
  seq_cons_fine (text_fine rfl (.inl rfl) idOk).inside <|
  seq_cons_fine (number_fine rfl idOk).inside <|
  seq_cons_fine (number_fine rfl idOk).inside <|
  seq_cons_fine (number_fine rfl idOk).inside <|
  seq_cons_fine (each_fine display_fine) seq_nil_fine).inside

theorem chapters_fine (cs : List Chapter) : (chaptersTree cs).Fine (kidsOf gSegment) :=
  group_fine gChapters rfl trivial idOk (group_fine gEditionEntry rfl trivial idOk (each_fine chapter_fine)).inside

theorem simpleTag_fine (t : SimpleTag) : (simpleTagTree t).FineIn (kidsOf gTag) :=
  (group_fine (gSimpleTag maxRecursionDepth true) rfl trivial idOk <|
  seq_cons_fine (text_fine rfl (.inl rfl) idOk).inside <|
  seq_cons_fine (text_fine rfl (.inl rfl) idOk).inside seq_nil_fine).inside

theorem tags_fine (ts : List Tag) : (tagsTree ts).Fine (kidsOf gSegment) :=
  group_fine gTags rfl trivial idOk <| each_fine fun _ => (group_fine gTag rfl trivial idOk (each_fine simpleTag_fine)).inside

/-! ### Trees an application takes no frame from -/

/-- No blocks, no clusters, no block groups. -/
def Tree.Quiet : Tree → Prop
  | .nil => True
  | .leaf _ _ p next => (∃ b, p = .bytes b) ∧ next.Quiet
  | .node id _ _ kids next => (id ≠ Id.kCluster ∧ id ≠ Id.kBlockGroup) ∧ kids.Quiet ∧ next.Quiet

@[simp] theorem quiet_nil : Tree.nil.Quiet := trivial

@[simp] theorem quiet_append (a b : Tree) : (a.append b).Quiet ↔ a.Quiet ∧ b.Quiet := by
  induction a with
  | nil => simp [Tree.append]
  | leaf id w p next ih => simp [Tree.append, Tree.Quiet, ih, and_assoc]
  | node id w known kids next ihk ih => simp [Tree.append, Tree.Quiet, ih, and_assoc]

@[simp] theorem quiet_plain (id : Nat) (b : Bytes) : (plain id b).Quiet := ⟨⟨b, rfl⟩, trivial⟩

@[simp] theorem quiet_group (id : Nat) (k : Tree) :
    (group id k).Quiet ↔ (id ≠ Id.kCluster ∧ id ≠ Id.kBlockGroup) ∧ k.Quiet := by simp [group, Tree.Quiet]

theorem quiet_groupIf {id : Nat} {k : Tree} (h : id ≠ Id.kCluster ∧ id ≠ Id.kBlockGroup) (hk : k.Quiet) :
    (groupIf id k).Quiet := by
  cases k with
  | nil => trivial
  | leaf => exact (quiet_group _ _).mpr ⟨h, hk⟩
  | node => exact (quiet_group _ _).mpr ⟨h, hk⟩

@[simp] theorem quiet_seq_nil : (seq []).Quiet := trivial
@[simp] theorem quiet_seq_cons (t : Tree) (ts : List Tree) : (seq (t :: ts)).Quiet ↔ t.Quiet ∧ (seq ts).Quiet := by
  simp [seq]
@[simp] theorem quiet_number (id : Nat) (v : UInt64) : (number id v).Quiet := quiet_plain ..
@[simp] theorem quiet_numberIf (id : Nat) (v : UInt64) : (numberIf id v).Quiet := by unfold numberIf; split <;> simp
@[simp] theorem quiet_numberSet (id : Nat) (v : UInt64) : (numberSet id v).Quiet := by unfold numberSet; split <;> simp
@[simp] theorem quiet_float (id : Nat) (v : UInt32) : (float id v).Quiet := quiet_plain ..
@[simp] theorem quiet_luminance (id : Nat) (v : UInt32) : (luminance id v).Quiet := by unfold luminance; split <;> simp
@[simp] theorem quiet_text (id : Nat) (v : Option Bytes) : (text id v).Quiet := by cases v <;> simp [text]

theorem quiet_optional {α : Type} {f : α → Tree} {o : Option α} (h : ∀ a, (f a).Quiet) : (Spec.optional f o).Quiet := by
  cases o with
  | none => trivial
  | some a => exact h a

theorem quiet_each {α : Type} {f : α → Tree} {xs : List α} (h : ∀ a, (f a).Quiet) : (each f xs).Quiet := by
  induction xs with
  | nil => trivial
  | cons x xs ih => exact (quiet_append _ _).mpr ⟨h x, ih⟩

theorem mastering_quiet (m : MasteringMetadata) : (masteringTree m).Quiet := by
  refine quiet_groupIf (by decide) ?_
  have h : ∀ x y (o : Option Chromaticity), (Spec.optional (chromaTree x y) o).Quiet := fun x y o =>
    quiet_optional fun a => by simp [chromaTree]
  simp [h]

theorem colour_quiet (c : Colour) : (colourTree c).Quiet := by
  refine quiet_groupIf (by decide) ?_
  simp [quiet_optional mastering_quiet]

theorem track_quiet (t : Track) : (trackTree t).Quiet := by
  have h1 : (groupIf 0x6D80 (each encodingTree t.encodings)).Quiet :=
    quiet_groupIf (by decide) (quiet_each fun e => by simp [encodingTree]; decide)
  have h2 : (partTree t.part).Quiet := by
    cases t.part with
    | plain => trivial
    | audio a => simp [partTree, audioTree]; decide
    | video v =>
      have h3 : (Spec.optional projectionTree v.projection).Quiet := quiet_optional fun p => by
        simp [projectionTree]; decide
      simp [partTree, videoTree, quiet_optional colour_quiet, h3]
      exact ⟨by decide, quiet_optional fun _ => by simp⟩
  simp [trackTree, h1, h2]
  decide

theorem tracks_quiet (ts : List Track) : (tracksTree ts).Quiet :=
  (quiet_group _ _).mpr ⟨by decide, quiet_each track_quiet⟩

theorem chapters_quiet (cs : List Chapter) : (chaptersTree cs).Quiet := by
  refine (quiet_group _ _).mpr ⟨by decide, (quiet_group _ _).mpr ⟨by decide, quiet_each fun c => ?_⟩⟩
  have h : (each displayTree c.displays).Quiet := quiet_each fun d => by simp [displayTree]; decide
  simp [chapterTree, h]
  decide

theorem tags_quiet (ts : List Tag) : (tagsTree ts).Quiet := by
  refine (quiet_group _ _).mpr ⟨by decide, quiet_each fun t => (quiet_group _ _).mpr ⟨by decide, quiet_each fun s => ?_⟩⟩
  simp [simpleTagTree]
  decide

/-! ### Reading -/

/-- A reader that leaves nothing out. -/
abbrev takeAll : Log → Meta → Bool := fun _ _ => false

/-- What is remembered after some more calls. -/
def look (v : View) (L : Log) : View := L.foldl View.step v

@[simp] theorem look_nil (v : View) : look v [] = v := rfl
@[simp] theorem look_cons (v : View) (e : Ev) (L : Log) : look v (e :: L) = look (v.step e) L := rfl
@[simp] theorem look_append (v : View) (a b : Log) : look v (a ++ b) = look (look v a) b := List.foldl_append

theorem look_announce_none (v : View) (t : Told) (m : Meta) (st : Bool) :
    look v (t.announce none m st).log = look v t.log := by
  simp [Told.announce, View.step]

theorem look_announce (v : View) (t : Told) (due : Option Meta) (m : Meta) (st : Bool)
    (hd : ∀ me ∈ due, me.id ≠ Id.kCluster) : look v (t.announce due m st).log = look v t.log := by
  cases due with
  | none => exact look_announce_none ..
  | some me =>
    have := hd me rfl
    unfold Told.announce
    simp only
    split <;> simp [View.step, this]

theorem quiet_read {t : Tree} : ∀ {ks : Kids} {due : Option Meta} {pos : Nat} {told : Told} (v : View), t.Quiet →
    (∀ me ∈ due, me.id ≠ Id.kCluster) → look v (t.read takeAll ks due pos told).log = look v told.log := by
  induction t with
  | nil => intros; rfl
  | leaf id w p next ih =>
    intro ks due pos told v ⟨⟨b, hb⟩, hn⟩ hd
    subst hb
    rw [Tree.read_leaf, ih v hn hd]
    simp only [Tree.read, takeAll, Bool.false_eq_true, if_false]
    split
    · rename_i l _
      cases l <;> simp [Told.close, Payload.read, look_announce _ _ _ _ _ hd, View.step]
    · simp [Told.close, Payload.read, look_announce _ _ _ _ _ hd, View.step]
  | node id w known kids next ihk ih =>
    intro ks due pos told v ⟨⟨h1, h2⟩, hk, hn⟩ hd
    simp only [Tree.read, takeAll, Bool.and_false, Bool.false_eq_true, if_false]
    split
    · rw [ih v hn hd]
      simp only [Told.close, look_append]
      rw [ihk v hk (by
        intro me hme
        split at hme
        · cases hme; exact h1
        · cases hme)]
      simp only [look_append, look_announce _ _ _ _ _ hd]
      have e1 : ∀ (u : View) (c : Prop) [Decidable c] (m : Meta) (x : Val), m.id = id →
          look u (if c then [.start m x] else []) = u := by
        intro u c _ m x hm; split <;> simp [View.step, hm, h1]
      have e2 : ∀ (u : View) (c : Prop) [Decidable c] (m : Meta) (x : Val), m.id = id →
          look u (if c then [.complete m x] else []) = u := by
        intro u c _ m x hm; split <;> simp [View.step, hm, h2]
      rw [e1 _ _ _ _ rfl, e1 _ _ _ _ rfl, e2 _ _ _ _ rfl]
    · rfl

theorem Tree.Shaped.entry {id w : Nat} {known : Bool} {kids next : Tree} {ks : Kids} {sized : Bool} {after : Option Nat}
    (h : (Tree.node id w known kids next).Shaped ks sized after) :
    ∃ st co r ks', ks.entry id = some (st, co, .master r ks') := by
  have h3 := h.2.2.1
  cases he : ks.entry id with
  | none => rw [he] at h3; exact h3.elim
  | some x =>
    obtain ⟨st, co, g⟩ := x
    cases g with
    | leaf l => rw [he] at h3; exact h3.elim
    | master r ks' => exact ⟨st, co, r, ks', rfl⟩

theorem read_append {a b : Tree} {ks : Kids} {sized : Bool} {x : Option Nat} (h : a.Shaped ks sized x)
    (due : Option Meta) (pos : Nat) (told : Told) : (a.append b).read takeAll ks due pos told =
      b.read takeAll ks due (pos + a.bytes.length) (a.read takeAll ks due pos told) := by
  induction a generalizing pos told with
  | nil => rfl
  | leaf id w p next ih =>
    show (Tree.leaf id w p (next.append b)).read takeAll ks due pos told = _
    rw [Tree.read_leaf, ih h.2.2.2, Tree.read_leaf _ _ _ _ _ _ next]
    congr 1
    simp [Tree.bytes, header, Par.vint_length]; omega
  | node id w known kids next ihk ih =>
    obtain ⟨st, co, r, ks', he⟩ := h.entry
    show (Tree.node id w known kids (next.append b)).read takeAll ks due pos told = _
    rw [Tree.read_node _ _ _ _ _ _ _ _ _ _ he, ih h.2.2.2, Tree.read_node _ _ _ _ _ _ _ next _ _ he]
    congr 1
    simp [Tree.bytes, header, Par.vint_length]; omega

/-! ### Values -/

/-- The value an element collects from its children, added to what it has. -/
def Tree.val (ks : Kids) : Tree → Val → Val
  | .nil, acc => acc
  | .leaf id _ p next, acc =>
    match ks.entry id with
    | some (_, consume, .leaf l) => next.val ks (if consume then acc.push id (p.read ⟨0, 0, 0, 0⟩ (some l)).2 else acc)
    | _ => next.val ks acc
  | .node id _ _ kids next, acc =>
    match ks.entry id with
    | some (_, consume, .master _ ks') => next.val ks (if consume then acc.push id (kids.val ks' .nil) else acc)
    | _ => acc

theorem payload_value (m m' : Meta) (l : Option Leaf) (p : Payload) : (p.read m l).2 = (p.read m' l).2 := by
  cases l with
  | none => rfl
  | some l => cases l <;> cases p <;> rfl

theorem announce_value (t : Told) (due : Option Meta) (m : Meta) (st : Bool) : (t.announce due m st).value = t.value := by
  unfold Told.announce
  split
  · split <;> rfl
  · rfl

theorem read_value (t : Tree) : ∀ (ks : Kids) (due : Option Meta) (pos : Nat) (told : Told),
    (t.read takeAll ks due pos told).value = t.val ks told.value := by
  induction t with
  | nil => intros; rfl
  | leaf id w p next ih =>
    intro ks due pos told
    rcases he : ks.entry id with _ | ⟨st, co, l | ⟨r, ks'⟩⟩
    · simp [Tree.read, Tree.val, he, ih, Told.close, announce_value]
    · simp only [Tree.read, takeAll, Bool.false_eq_true, if_false, Tree.val, he, ih, Told.close, announce_value]
      rw [payload_value _ ⟨0, 0, 0, 0⟩]
    · simp [Tree.read, Tree.val, he, ih, Told.close, announce_value]
  | node id w known kids next ihk ih =>
    intro ks due pos told
    rcases he : ks.entry id with _ | ⟨st, co, l | ⟨r, ks'⟩⟩
    · simp [Tree.read, Tree.val, he]
    · simp [Tree.read, Tree.val, he]
    · simp only [Tree.read, takeAll, Bool.and_false, Bool.false_eq_true, if_false, Tree.val, he, ih, ihk, Told.close, announce_value]

theorem val_append {a b : Tree} {ks : Kids} {sized : Bool} {x : Option Nat} (h : a.Shaped ks sized x) (acc : Val) :
    (a.append b).val ks acc = b.val ks (a.val ks acc) := by
  induction a generalizing acc with
  | nil => rfl
  | leaf id w p next ih =>
    simp only [Tree.append, Tree.val]
    split <;> exact ih h.2.2.2 _
  | node id w known kids next ihk ih =>
    obtain ⟨st, co, r, ks', he⟩ := h.entry
    simp only [Tree.append, Tree.val, he]
    exact ih h.2.2.2 _

@[simp] theorem get_push (v : Val) (id : Nat) (x : Val) (j : Nat) :
    (v.push id x).get j = if id = j then some x else v.get j := by
  induction v with
  | cons i w rest _ ih =>
    simp only [Val.push, Val.get, ih]
    split <;> simp
  | _ => simp [Val.push, Val.get]

/-! ### What is shown -/

/-- Reading these elements shows these frames. -/
def Shows (ks : Kids) (t : Tree) (fs : List SeenFrame) : Prop :=
  ∀ pos told v, (look v (t.read takeAll ks none pos told).log).seen = (look v told.log).seen ++ fs

theorem Tree.Quiet.shows {ks : Kids} {t : Tree} (h : t.Quiet) : Shows ks t [] := by
  intro pos told v
  rw [quiet_read v h (by intro _ h; cases h), List.append_nil]

theorem Shows.append {ks : Kids} {a b : Tree} {fs gs : List SeenFrame} (ha : Shows ks a fs) (hb : Shows ks b gs)
    {sized : Bool} {x : Option Nat} (h : a.Shaped ks sized x) : Shows ks (a.append b) (fs ++ gs) := by
  intro pos told v
  rw [read_append h, hb, ha, List.append_assoc]

theorem Shows.node {ks ks' : Kids} {id w : Nat} {known : Bool} {kids : Tree} {fs : List SeenFrame} (h : Shows ks' kids fs)
    {st co : Bool} {r : Wrap} (he : ks.entry id = some (st, co, .master r ks')) (hr : r.start ≠ .tagged)
    (h1 : id ≠ Id.kCluster) (h2 : id ≠ Id.kBlockGroup) : Shows ks (.node id w known kids .nil) fs := by
  intro pos told v
  simp only [Tree.read, takeAll, Bool.and_false, Bool.false_eq_true, if_false, he, Told.close, look_append, if_neg hr]
  have e1 : ∀ (u : View) (c : Prop) [Decidable c] (m : Meta) (x : Val), m.id = id →
      look u (if c then [.start m x] else []) = u := by
    intro u c _ m x hm; split <;> simp [View.step, hm, h1]
  have e2 : ∀ (u : View) (c : Prop) [Decidable c] (m : Meta) (x : Val), m.id = id →
      look u (if c then [.complete m x] else []) = u := by
    intro u c _ m x hm; split <;> simp [View.step, hm, h2]
  rw [e2 _ _ _ _ rfl]
  simp only [hr, false_and, if_false, look_nil]
  have h' := h (pos + (byteWidth id + w)) ⟨(told.announce none ⟨id, byteWidth id + w, if known = true then kids.bytes.length else 2 ^ 64 - 1, pos⟩ st).log ++
    (if r.start = .first then [.start ⟨id, byteWidth id + w, if known = true then kids.bytes.length else 2 ^ 64 - 1, pos⟩ .nil] else []), .nil, false⟩ v
  rw [h']
  simp only [look_append]
  rw [e1 _ _ _ _ rfl, look_announce_none]

/-- The IDs of the elements of a sequence. -/
def Tree.tops : Tree → List Nat
  | .nil => []
  | .leaf id _ _ next => id :: next.tops
  | .node id _ _ _ next => id :: next.tops

theorem tops_append (a b : Tree) : (a.append b).tops = a.tops ++ b.tops := by
  induction a with
  | nil => rfl
  | leaf id w p next ih => simp [Tree.append, Tree.tops, ih]
  | node id w known kids next _ ih => simp [Tree.append, Tree.tops, ih]

end Verif.Spec

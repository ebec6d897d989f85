/-
C92: the memory and the completeness of chapters, tags and segment information as parsed.
-/
import Verif.Lemmas.ParserTextMem
import Verif.Spec.TrackBuilding

namespace Verif.Props
open Verif Verif.Spec Verif.Par.Texts Verif.Mux.Build

/-- Whatever the tags of a file are, whatever cannot be read and whichever allocations fail: parsing them has no undefined behaviour, nor has
the destructor, which leaves nothing allocated. -/
theorem C92_tags_freed (can : Nat → Bool) (es : TagsIn) (hs : TagsSmall es) :
    ∃ status x m m', parseTags can es = .ok (status, x, m) ∧ destroyTags x m = .ok m' ∧ m'.live = [] := by
  obtain ⟨st, x, m, e, h, -⟩ := parseTags_spec can hs
  obtain ⟨m', e', h'⟩ := destroyTags_spec h
  exact ⟨st, x, m, m', e, e', h'⟩

/-- The same for the chapters. -/
theorem C92_chapters_freed (can : Nat → Bool) (es : ChaptersIn) (hs : ChaptersSmall es) :
    ∃ status x m m', parseChapters can es = .ok (status, x, m) ∧ destroyChapters x m = .ok m' ∧ m'.live = [] := by
  obtain ⟨st, x, m, e, h, -⟩ := parseChapters_spec can hs
  obtain ⟨m', e', h'⟩ := destroyChapters_spec h
  exact ⟨st, x, m, m', e, e', h'⟩

/-- The same for the segment information; if it is parsed with success, it shows the texts in the file. -/
theorem C92_info (can : Nat → Bool) (ps : List LeafPart) :
    ∃ status t m m', parseInfo can ps = .ok (status, t, m) ∧ t.clear m = .ok m' ∧ m'.live = [] ∧
      (status = 0 → threeShown t = threeSaid ps) := by
  obtain ⟨st, t, m, e, h, -, hs⟩ := parseTexts_spec (can := can) (ps := ps) (t := {}) (m := {}) (f := fun _ => 0) (fun a => by simp [threeA, strA])
  obtain ⟨m', e', h'⟩ := three_clear t m _ h
  exact ⟨st, t, m, m', e, e', nothing_live h', fun hz => said_of_get (hs hz)⟩

/-- If the tags are parsed with success they are shown as they are in the file, also if allocations have failed.  Partial: the reader never
answers with a positive number. -/
theorem C92_tags_shown_partial (can : Nat → Bool) (es : TagsIn) (hs : TagsSmall es) (hp : TagsNoPositive es) (x : Arr (Arr Three)) (m : Mem)
    (h : parseTags can es = .ok (0, x, m)) : tagsShown x = tagsSaid es := by
  obtain ⟨st, x', m', e, -, hd⟩ := parseTags_spec can hs
  rw [h] at e
  cases e
  exact (hd hp).2 rfl

/-- The same for the chapters. -/
theorem C92_chapters_shown_partial (can : Nat → Bool) (es : ChaptersIn) (hs : ChaptersSmall es) (hp : ChaptersNoPositive es)
    (x : Arr (Arr AtomMem)) (m : Mem) (h : parseChapters can es = .ok (0, x, m)) : chaptersShown x = chaptersSaid es := by
  obtain ⟨st, x', m', e, -, hd⟩ := parseChapters_spec can hs
  rw [h] at e
  cases e
  exact (hd hp).2 rfl

/-- With memory enough, tags that can be read are parsed with success. -/
theorem C92_tags_parsed (can : Nat → Bool) (hc : Enough can) (es : TagsIn) (hs : TagsSmall es) (hg : TagsGood es) :
    ∃ x m, parseTags can es = .ok (0, x, m) := by
  have : can = fun _ => true := funext hc
  subst this
  obtain ⟨st, x, m, e, -⟩ := parseTags_spec (fun _ => true) hs
  have := parseTags_good hg e
  subst this
  exact ⟨x, m, e⟩

/-- The same for the chapters. -/
theorem C92_chapters_parsed (can : Nat → Bool) (hc : Enough can) (es : ChaptersIn) (hs : ChaptersSmall es) (hg : ChaptersGood es) :
    ∃ x m, parseChapters can es = .ok (0, x, m) := by
  have : can = fun _ => true := funext hc
  subst this
  obtain ⟨st, x, m, e, -⟩ := parseChapters_spec (fun _ => true) hs
  have := parseChapters_good hg e
  subst this
  exact ⟨x, m, e⟩

/-- A reader that answers a read with a positive number: the tag is taken for complete and has no name, though the file has one. -/
theorem C92_positive_read (can : Nat → Bool) (hc : Enough can) (status : Int) (hs : 0 < status) (name : Bytes) (hn : name.length ≤ 20000000) :
    ∃ x m, parseTags can [.child [.child [.text .first name status]]] = .ok (0, x, m) ∧ tagsShown x = [[(none, none, none)]] := by
  have : can = fun _ => true := funext hc
  subst this
  have e : ∀ m : Mem, m = { live := [1, 0], next := 2 } → parseTexts (fun _ => true) [.text .first name status] {} m =
      .ok (status, {}, { live := [1, 0], next := 3 }) := by
    rintro m rfl
    show (unserializeString _ _ _ _ _ >>= _) = _
    have : unserializeString (fun _ => true) name status (({} : Three).get .first) { live := [1, 0], next := 2 } =
        .ok (status, none, { live := [1, 0], next := 3 }) := by
      unfold unserializeString
      show (if name.length > textLimit then _ else _) = _
      rw [if_neg (by unfold textLimit; omega)]
      show (if status ≠ 0 then _ else _) = _
      rw [if_pos (by omega)]
      rfl
    rw [this, Res.bind_ok]
    show (if status ≠ 0 then _ else _) = _
    rw [if_pos (by omega)]
    rfl
  have e1 : parseArr (fun _ => true) (fun s => parseTexts (fun _ => true) s {}) [.child [.text .first name status]] {} { live := [0], next := 1 } =
      .ok (0, { addr := some 1, size := 1, items := [{}] }, { live := [1, 0], next := 3 }) := by
    show ((parseTexts (fun _ => true) [.text .first name status] {} { live := [1, 0], next := 2 } >>= _) >>= _) = _
    rw [e _ rfl, Res.bind_ok]
    show (if status < 0 then _ else _) = _
    rw [if_neg (by omega)]
    rfl
  refine ⟨{ addr := some 0, size := 1, items := [{ addr := some 1, size := 1, items := [{}] }] }, { live := [1, 0], next := 3 }, ?_, rfl⟩
  show ((parseArr (fun _ => true) (fun s => parseTexts (fun _ => true) s {}) [.child [.text .first name status]] {} { live := [0], next := 1 }
    >>= _) >>= _) = _
  rw [e1]
  rfl

/-- Three tags; the second has two simple tags, one of which has its name twice. -/
private def tags : TagsIn :=
  [.child [], .other, .child [.child [.text .first [65] 0, .text .first [66] 0], .child [.text .second [67, 68] 0, .other]],
    .child [.child [.text .first [69] 0]]]

/-- An edition with two atoms, one with string UIDs and displays. -/
private def chaps : ChaptersIn :=
  [.child [.child [.uid [65] 0, .display [.text .first [66] 0, .text .second [67] 0], .uid [68] 0, .display []], .other, .child []]]

example : TagsSmall tags ∧ TagsNoPositive tags ∧ TagsGood tags := by
  refine ⟨?_, ?_, ?_⟩
  · simp only [TagsSmall, tags, kids,
      List.filterMap_cons, List.filterMap_nil, List.forall_mem_cons, List.not_mem_nil, false_implies, implies_true, and_true, and_self, true_and,
      List.length_cons, List.length_nil, ne_eq, reduceCtorEq, not_false_eq_true, Int.le_refl]; decide
  · simp only [TagsNoPositive, tags, kids, LeafPart.NoPositive,
      List.filterMap_cons, List.filterMap_nil, List.forall_mem_cons, List.not_mem_nil, false_implies, implies_true, and_true, and_self, true_and,
      List.length_cons, List.length_nil, ne_eq, reduceCtorEq, not_false_eq_true, Int.le_refl]
  · simp only [TagsGood, tags, kids, LeafPart.Good,
      List.filterMap_cons, List.filterMap_nil, List.forall_mem_cons, List.not_mem_nil, false_implies, implies_true, and_true, and_self, true_and,
      List.length_cons, List.length_nil, ne_eq, reduceCtorEq, not_false_eq_true, Int.le_refl]; decide

example : ChaptersSmall chaps ∧ ChaptersNoPositive chaps ∧ ChaptersGood chaps := by
  refine ⟨?_, ?_, ?_⟩
  · simp only [ChaptersSmall, chaps, kids,
      List.filterMap_cons, List.filterMap_nil, List.forall_mem_cons, List.not_mem_nil, false_implies, implies_true, and_true, and_self, true_and,
      List.length_cons, List.length_nil, ne_eq, reduceCtorEq, not_false_eq_true, Int.le_refl]; decide
  · simp only [ChaptersNoPositive, chaps, kids, AtomPart.NoPositive, LeafPart.NoPositive,
      List.filterMap_cons, List.filterMap_nil, List.forall_mem_cons, List.not_mem_nil, false_implies, implies_true, and_true, and_self, true_and,
      List.length_cons, List.length_nil, ne_eq, reduceCtorEq, not_false_eq_true, Int.le_refl]
  · simp only [ChaptersGood, chaps, kids, AtomPart.Good, LeafPart.Good,
      List.filterMap_cons, List.filterMap_nil, List.forall_mem_cons, List.not_mem_nil, false_implies, implies_true, and_true, and_self, true_and,
      List.length_cons, List.length_nil, ne_eq, reduceCtorEq, not_false_eq_true, Int.le_refl]; decide

example : tagsSaid tags = [[], [(some [66], none, none), (none, some [67, 68], none)], [(some [69], none, none)]] := by decide

example : chaptersSaid chaps = [[(some [68], [(some [66], some [67], none), (none, none, none)]), (none, [])]] := rfl

/-- Without memory for the second text, parsing fails and the tags stop there. -/
example : ∃ x m, parseTags (fun n => n != 4) tags = .ok (-2, x, m) ∧ tagsShown x = [[], [(none, none, none)]] ∧ m.next = 5 :=
  ⟨_, _, rfl, rfl, rfl⟩

example : ∃ x m, parseChapters (fun _ => true) chaps = .ok (0, x, m) ∧ m.live.length = 6 := ⟨_, _, rfl, rfl⟩

end Verif.Props

/-
C87: chapters and tags are built as ordered, whatever fails, and nothing is lost or freed twice.
-/
import Verif.Lemmas.MuxerBuild

namespace Verif.Props
open Verif Verif.Mux Verif.Mux.Build Verif.Spec

private theorem sane_chapters {calls : List Call} (h : ForChapters calls) : ∀ c ∈ calls, c.Sane := by
  intro c hc
  have := h c hc
  cases c with
  | setTime scale s e => exact this
  | _ => trivial

private theorem sane_tags {calls : List Call} (h : ForTags calls) : ∀ c ∈ calls, c.Sane := by
  intro c hc
  have := h c hc
  cases c with
  | setTime scale s e => exact this.elim
  | _ => trivial

private def chapterOf (t : Text) : Chapter :=
  { id := t.id, start := t.start, stop := t.stop, uid := t.uid,
    displays := t.parts.map fun ss => { title := ss[0]?.getD none, language := ss[1]?.getD none, country := ss[2]?.getD none } }

private def tagOf (t : Text) : Tag := t.parts.map fun ss => { name := ss[0]?.getD none, string := ss[1]?.getD none }

private theorem getD_text (ss : List Str) (i : Nat) :
    ((ss.map (·.map (·.2)))[i]?.getD none : Option Bytes) = (ss[i]?.getD none).map (·.2) := by
  rw [List.getElem?_map]
  cases ss[i]? <;> rfl

private theorem chapters_text (x : St) : x.chapters = (x.arr.items.map Obj.text).map chapterOf := by
  unfold St.chapters
  rw [List.map_map]
  apply List.map_congr_left
  intro o _
  simp only [Function.comp, chapterOf, Obj.text, List.map_map, Chapter.mk.injEq, true_and]
  apply List.map_congr_left
  intro ss _
  simp only [Function.comp, asDisplay, getD_text]

private theorem tags_text (x : St) : x.tags = (x.arr.items.map Obj.text).map tagOf := by
  unfold St.tags
  rw [List.map_map]
  apply List.map_congr_left
  intro o _
  simp only [Function.comp, tagOf, Obj.text, List.map_map]
  apply List.map_congr_left
  intro ss _
  simp only [Function.comp, asSimpleTag, getD_text]

private theorem map_onLast {α β : Type} (h : α → β) (f : α → α) (g : β → β) (e : ∀ x, h (f x) = g (h x)) (xs : List α) :
    (onLast f xs).map h = onLast g (xs.map h) := by
  induction xs with
  | nil => rfl
  | cons x xs ih =>
    cases xs with
    | nil => exact congrArg (· :: []) (e x)
    | cons y ys => exact congrArg (h x :: ·) ih

private theorem chapters_fold (h : List (Call × Bool)) (hc : ∀ x ∈ h, ∀ a b, x.1 ≠ .addSimpleTag a b) :
    ∀ ts : List Text, (h.foldl saidAfter ts).map chapterOf = h.foldl chaptersAfter (ts.map chapterOf) := by
  induction h with
  | nil => intro ts; rfl
  | cons x xs ih =>
    intro ts
    rw [List.foldl_cons, List.foldl_cons, ih fun y hy => hc y (List.mem_cons_of_mem _ hy)]
    refine congrArg (fun l => List.foldl chaptersAfter l xs) ?_
    obtain ⟨c, b⟩ := x
    cases c with
    | add uid => cases b <;> simp [saidAfter, chaptersAfter, chapterOf]
    | setId s => exact map_onLast chapterOf (Call.says (.setId s)) (fun c => { c with id := s }) (fun t => rfl) ts
    | setTime a s e =>
      exact map_onLast chapterOf (Call.says (.setTime a s e)) (fun c => { c with start := s / a, stop := e / a }) (fun t => rfl) ts
    | setUid u => exact map_onLast chapterOf (Call.says (.setUid u)) (fun c => { c with uid := u }) (fun t => rfl) ts
    | addString t l n => exact map_onLast _ _ _ (fun t => by simp [Call.says, chapterOf]) ts
    | addSimpleTag a b => exact absurd rfl (hc _ (List.mem_cons_self ..) a b)

private theorem tags_fold (h : List (Call × Bool)) (hc : ∀ x ∈ h, (∃ u, x.1 = .add u) ∨ ∃ a b, x.1 = .addSimpleTag a b) :
    ∀ ts : List Text, (h.foldl saidAfter ts).map tagOf = h.foldl tagsAfter (ts.map tagOf) := by
  induction h with
  | nil => intro ts; rfl
  | cons x xs ih =>
    intro ts
    rw [List.foldl_cons, List.foldl_cons, ih fun y hy => hc y (List.mem_cons_of_mem _ hy)]
    refine congrArg (fun l => List.foldl tagsAfter l xs) ?_
    obtain ⟨c, b⟩ := x
    rcases hc (c, b) (List.mem_cons_self ..) with ⟨u, e⟩ | ⟨p, q, e⟩
    · simp only at e
      subst e
      cases b <;> simp [saidAfter, tagsAfter, tagOf]
    · simp only at e
      subst e
      exact map_onLast _ _ _ (fun t => by simp [Call.says, tagOf]) ts

private theorem of_zip {calls : List Call} {rs : List Bool} {x : Call × Bool} (h : x ∈ calls.zip rs) : x.1 ∈ calls :=
  (List.of_mem_zip (a := x.1) (b := x.2) h).1

/-- C87, chapters: whatever calls are made on the chapters (each on the chapter added last) and whichever allocations fail, no call
touches memory that is not its own; and as long as only `AddChapter` fails, the chapters that will be written are the ones that were
added, with the last identifier, times and UID set and with every display. -/
theorem C87_chapters (can : Nat → Bool) (calls : List Call) (hc : ForChapters calls) (hn : calls.length < 2 ^ 30) :
    ∃ rs st, St.run can calls {} = .ok (rs, st) ∧ rs.length = calls.length ∧
      (OnlyAddsFail (calls.zip rs) → st.chapters = (calls.zip rs).foldl chaptersAfter []) := by
  obtain ⟨rs, st, e, hl, _, h⟩ := run_spec (can := can) (sane_chapters hc) fresh_inv (by omega)
  refine ⟨rs, st, e, hl, fun ho => ?_⟩
  rw [chapters_text, h ho, chapters_fold]
  · rfl
  · intro x hx a b hab
    have := hc x.1 (of_zip hx)
    rw [hab] at this
    exact this

/-- C87, tags. -/
theorem C87_tags (can : Nat → Bool) (calls : List Call) (hc : ForTags calls) (hn : calls.length < 2 ^ 30) :
    ∃ rs st, St.run can calls {} = .ok (rs, st) ∧ rs.length = calls.length ∧
      (OnlyAddsFail (calls.zip rs) → st.tags = (calls.zip rs).foldl tagsAfter []) := by
  obtain ⟨rs, st, e, hl, _, h⟩ := run_spec (can := can) (sane_tags hc) fresh_inv (by omega)
  refine ⟨rs, st, e, hl, fun ho => ?_⟩
  rw [tags_text, h ho, tags_fold]
  · rfl
  · intro x hx
    have := hc x.1 (of_zip hx)
    generalize x.1 = c at this
    cases c with
    | add u => exact .inl ⟨u, rfl⟩
    | addSimpleTag a b => exact .inr ⟨a, b, rfl⟩
    | _ => exact this.elim

/-- C87, destruction: after every such history, with every pattern of failing allocations, destroying the chapters or tags frees
each allocation, and each only once. -/
theorem C87_freed (can : Nat → Bool) (calls : List Call) (hc : ForChapters calls ∨ ForTags calls) (hn : calls.length < 2 ^ 30)
    {rs : List Bool} {st : St} (hrun : St.run can calls {} = .ok (rs, st)) : ∃ m, st.destroy = .ok m ∧ m.live = [] := by
  obtain ⟨rs', st', e, _, hi, _⟩ := run_spec (can := can) (cs := calls)
    (hc.elim (fun h => sane_chapters h) (fun h => sane_tags h)) fresh_inv (by omega)
  rw [hrun] at e
  cases e
  exact destroy_spec hi


/-- C87, answers: when no allocation fails and something is added first, every call succeeds. -/
theorem C87_succeeds (uid : UInt64) (calls : List Call) {rs : List Bool} {st : St}
    (hrun : St.run (fun _ => true) (.add uid :: calls) {} = .ok (rs, st)) :
    rs = List.replicate (calls.length + 1) true :=
  run_succeeds uid hrun

/-! ### An example -/

/-- Three chapters, the second of which gets two titles and a new identifier. -/
def someChapterCalls : List Call :=
  [.add 11, .setId (some [0x61]), .setTime 1000000 0 5000000, .addString (some [0x41]) (some [0x65, 0x6E]) none,
   .add 12, .setId (some [0x62]), .addString (some [0x42]) none none, .addString (some [0x43]) (some [0x64, 0x65]) (some [0x44, 0x45]),
   .setId (some [0x63]), .setUid 99, .add 13, .setTime 1000 5000 6999]

example : ForChapters someChapterCalls := by
  intro c hc
  simp only [someChapterCalls, List.mem_cons, List.not_mem_nil, or_false] at hc
  rcases hc with rfl | rfl | rfl | rfl | rfl | rfl | rfl | rfl | rfl | rfl | rfl | rfl <;> first | trivial | decide

/-- All goes well: three chapters. -/
example : (St.run (fun _ => true) someChapterCalls {}).map (fun r => (r.1, r.2.chapters)) = .ok (List.replicate 12 true,
    [{ id := some [0x61], start := 0, stop := 5, uid := 11, displays := [⟨some [0x41], some [0x65, 0x6E], none⟩] },
     { id := some [0x63], uid := 99, displays := [⟨some [0x42], none, none⟩, ⟨some [0x43], some [0x64, 0x65], some [0x44, 0x45]⟩] },
     { uid := 13, start := 5, stop := 6 }]) := by decide +kernel

/-- The third `AddChapter` fails, all the calls after it are about the second chapter. -/
example : (St.run (fun n => n ≠ 14) someChapterCalls {}).map (fun r => (r.1, r.2.chapters)) = .ok (
    [true, true, true, true, true, true, true, true, true, true, false, true],
    [{ id := some [0x61], start := 0, stop := 5, uid := 11, displays := [⟨some [0x41], some [0x65, 0x6E], none⟩] },
     { id := some [0x63], uid := 99, start := 5, stop := 6,
       displays := [⟨some [0x42], none, none⟩, ⟨some [0x43], some [0x64, 0x65], some [0x44, 0x45]⟩] }]) := by decide +kernel

/-- Everything is freed: 11 of the 15 allocations are live before, none after. -/
example : ((St.run (fun _ => true) someChapterCalls {}).bind fun r => r.2.destroy.map fun m => (r.2.mem.live.length, m)) =
    .ok (11, { live := [], next := 15 }) := by decide +kernel

def someTagCalls : List Call := [.add 0, .addSimpleTag (some [0x54]) (some [0x56]), .add 0, .addSimpleTag (some [0x55]) none]

example : ForTags someTagCalls := by
  intro c hc
  simp only [someTagCalls, List.mem_cons, List.not_mem_nil, or_false] at hc
  rcases hc with rfl | rfl | rfl | rfl <;> trivial

example : (St.run (fun _ => true) someTagCalls {}).map (fun r => r.2.tags) = .ok
    [[⟨some [0x54], some [0x56]⟩], [⟨some [0x55], none⟩]] := by decide +kernel

/-! ### What is not so -/

/-- Not so: a pointer from `AddChapter` is good only until the array grows.  After the second `AddChapter`, a call on the chapter that the
first one returned is undefined. -/
theorem C87_stale : ∃ st1 st2 : St, ∃ h1 : Handle,
    St.run (fun _ => true) [.add 11] {} = .ok ([true], st1) ∧ st1.last = some h1 ∧
    St.run (fun _ => true) [.add 12] st1 = .ok ([true], st2) ∧ st2.use (fun _ => true) (.setUid 5) h1 = .ub :=
  ⟨_, _, _, rfl, rfl, rfl, rfl⟩

/-- Not so: a `set_id` that fails does not keep the identifier there was. -/
theorem C87_failed_id_forgets : ∃ st : St,
    St.run (fun n => n < 2) [.add 11, .setId (some [0x61]), .setId (some [0x62])] {} = .ok ([true, true, false], st) ∧
    st.chapters = [{ uid := 11 }] :=
  ⟨_, rfl, rfl⟩

/-- Not so: an `add_string` that fails may leave a display behind, which is then written. -/
theorem C87_failed_display_stays : ∃ st : St,
    St.run (fun n => n < 3) [.add 11, .addString (some [0x41]) (some [0x42]) (some [0x43])] {} = .ok ([true, false], st) ∧
    st.chapters = [{ uid := 11, displays := [⟨some [0x41], none, none⟩] }] :=
  ⟨_, rfl, rfl⟩

end Verif.Props

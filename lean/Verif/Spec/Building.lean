/-
What a series of calls that build chapters or tags should have built.
-/
import Verif.Model.MuxerBuild

namespace Verif.Spec
open Verif Verif.Mux Verif.Mux.Build

/-- Change the last one of a list. -/
def onLast {α : Type} (f : α → α) : List α → List α
  | [] => []
  | [x] => [f x]
  | x :: xs => x :: onLast f xs

/-- The chapters after a call with its answer: one more after a successful `AddChapter`, none after one that failed; the other calls change
the last chapter. -/
def chaptersAfter (cs : List Chapter) : Call × Bool → List Chapter
  | (.add uid, ok) => if ok then cs ++ [{ uid := uid }] else cs
  | (.setId s, _) => onLast (fun c => { c with id := s }) cs
  | (.setTime scale start stop, _) => onLast (fun c => { c with start := start / scale, stop := stop / scale }) cs
  | (.setUid uid, _) => onLast (fun c => { c with uid := uid }) cs
  | (.addString t l n, _) => onLast (fun c => { c with displays := c.displays ++ [⟨t, l, n⟩] }) cs
  | (.addSimpleTag .., _) => cs

/-- The tags after a call with its answer. -/
def tagsAfter (ts : List Tag) : Call × Bool → List Tag
  | (.add _, ok) => if ok then ts ++ [[]] else ts
  | (.addSimpleTag n s, _) => onLast (fun t => t ++ [⟨n, s⟩]) ts
  | _ => ts

/-- Only `AddChapter` and `AddTag` have failed, if any call has. -/
def OnlyAddsFail (history : List (Call × Bool)) : Prop := ∀ x ∈ history, x.2 = true ∨ ∃ uid, x.1 = .add uid

/-- The times are divided by a time scale that is not zero; `Chapter` has no simple tags. -/
def ForChapters (cs : List Call) : Prop := ∀ c ∈ cs, match c with
  | .setTime scale _ _ => scale ≠ 0
  | .addSimpleTag .. => False
  | _ => True

/-- `Tag` has nothing but simple tags. -/
def ForTags (cs : List Call) : Prop := ∀ c ∈ cs, match c with
  | .add _ | .addSimpleTag .. => True
  | _ => False

end Verif.Spec

/-
What chapters, tags and segment information say.
-/
import Verif.Model.ParserTextMem

namespace Verif.Spec
open Verif Verif.Par.Texts Verif.Mux.Build

/-- The last text of a kind among the children of an element. -/
def lastText (w : Which) (ps : List LeafPart) : Option Bytes :=
  (ps.filterMap fun p => match p with
    | .text w' s _ => if w' = w then some s else none
    | _ => none).getLast?

/-- The three texts of an element. -/
def threeSaid (ps : List LeafPart) : Option Bytes × Option Bytes × Option Bytes :=
  (lastText .first ps, lastText .second ps, lastText .third ps)

/-- The children of the kind wanted. -/
def kids {P : Type} (es : List (Part P)) : List P := es.filterMap fun e => match e with
  | .child p => some p
  | _ => none

/-- The tags in the file, each with its simple tags. -/
def tagsSaid (es : TagsIn) : List (List (Option Bytes × Option Bytes × Option Bytes)) := (kids es).map fun t => (kids t).map threeSaid

/-- What a chapter atom says: its last string UID, and its displays. -/
def atomSaid (as : List AtomPart) : Option Bytes × List (Option Bytes × Option Bytes × Option Bytes) :=
  ((as.filterMap fun a => match a with | .uid s _ => some s | _ => none).getLast?,
    as.filterMap fun a => match a with | .display ps => some (threeSaid ps) | _ => none)

/-- The editions in the file, each with its atoms. -/
def chaptersSaid (es : ChaptersIn) : List (List (Option Bytes × List (Option Bytes × Option Bytes × Option Bytes))) :=
  (kids es).map fun e => (kids e).map atomSaid

/-- What the getters show. -/
def threeShown (t : Three) : Option Bytes × Option Bytes × Option Bytes := (t.first.map (·.2), t.second.map (·.2), t.third.map (·.2))

def tagsShown (x : Arr (Arr Three)) : List (List (Option Bytes × Option Bytes × Option Bytes)) :=
  x.items.map fun t => t.items.map threeShown

def chaptersShown (x : Arr (Arr AtomMem)) : List (List (Option Bytes × List (Option Bytes × Option Bytes × Option Bytes))) :=
  x.items.map fun e => e.items.map fun a => (a.uid.map (·.2), a.displays.items.map threeShown)

/-- The reader does not answer with a positive number. -/
def LeafPart.NoPositive : LeafPart → Prop
  | .text _ _ read => read ≤ 0
  | _ => True

def AtomPart.NoPositive : AtomPart → Prop
  | .uid _ read => read ≤ 0
  | .display ps => ∀ p ∈ ps, LeafPart.NoPositive p
  | _ => True

def TagsNoPositive (es : TagsIn) : Prop := ∀ t ∈ kids es, ∀ s ∈ kids t, ∀ p ∈ s, LeafPart.NoPositive p

def ChaptersNoPositive (es : ChaptersIn) : Prop := ∀ e ∈ kids es, ∀ a ∈ kids e, ∀ p ∈ a, AtomPart.NoPositive p

/-- Fewer than 2³⁰ elements in each element. -/
def TagsSmall (es : TagsIn) : Prop := es.length < 2 ^ 30 ∧ ∀ t ∈ kids es, t.length < 2 ^ 30

def ChaptersSmall (es : ChaptersIn) : Prop :=
  es.length < 2 ^ 30 ∧ ∀ e ∈ kids es, e.length < 2 ^ 30 ∧ ∀ a ∈ kids e, a.length < 2 ^ 30

/-- The element can be read, and its text is no longer than the parser takes. -/
def LeafPart.Good : LeafPart → Prop
  | .text _ s read => read = 0 ∧ s.length ≤ 20000000
  | .other => True
  | .bad => False

def AtomPart.Good : AtomPart → Prop
  | .uid s read => read = 0 ∧ s.length ≤ 20000000
  | .display ps => ∀ p ∈ ps, LeafPart.Good p
  | .other => True
  | .bad => False

def TagsGood (es : TagsIn) : Prop := (∀ e ∈ es, e ≠ .bad) ∧ ∀ t ∈ kids es, (∀ e ∈ t, e ≠ .bad) ∧ ∀ s ∈ kids t, ∀ p ∈ s, LeafPart.Good p

def ChaptersGood (es : ChaptersIn) : Prop :=
  (∀ e ∈ es, e ≠ .bad) ∧ ∀ t ∈ kids es, (∀ e ∈ t, e ≠ .bad) ∧ ∀ s ∈ kids t, ∀ p ∈ s, AtomPart.Good p

end Verif.Spec

/-
mkvparser's readers of Chapters and Tags, mkvparser/mkvparser.cc:3234-3963.

Simplifications: arrays grow without bound (`new` succeeds), the sum of a position and a size does not overflow;
payloads of size zero are skipped by `continue` in the code, which is what going on behind them means.
-/
import Verif.Model.ParserTracks

namespace Verif.Par
open Verif
open Verif.Mux (kMkvEditionEntry kMkvChapterAtom kMkvChapterDisplay kMkvChapterStringUID kMkvChapterUID
  kMkvChapterTimeStart kMkvChapterTimeEnd kMkvChapString kMkvChapLanguage kMkvChapCountry kMkvTag kMkvSimpleTag
  kMkvTagName kMkvTagString)

/-! ### Chapters -/

/-- `Chapters::Display`, mkvparser/mkvparser.h:619-640; `none` is a null pointer. -/
structure ReadDisplay where
  string : Option Bytes := none
  language : Option Bytes := none
  country : Option Bytes := none
  deriving DecidableEq, Repr

/-- The body of the loop of `Chapters::Display::Parse`, mkvparser/mkvparser.cc:3662-3693. -/
def displayStep (r : Rdr) (_ : Nat) (h : Hdr) (d : ReadDisplay) : Res ReadDisplay :=
  if h.size = 0 then .ok d
  else if h.id = kMkvChapString then do
    let s ← unserializeString r h.pos h.size
    .ok { d with string := some s }
  else if h.id = kMkvChapLanguage then do
    let s ← unserializeString r h.pos h.size
    .ok { d with language := some s }
  else if h.id = kMkvChapCountry then do
    let s ← unserializeString r h.pos h.size
    .ok { d with country := some s }
  else .ok d

/-- `Chapters::Display::Parse`, mkvparser/mkvparser.cc:3658-3698. -/
def displayParse (r : Rdr) (start size : Nat) : Res ReadDisplay :=
  walk r (start + size) (displayStep r) start {}

/-- `Chapters::Atom`, mkvparser/mkvparser.h:642-680; the defaults are those of `Init`,
mkvparser/mkvparser.cc:3469-3478. -/
structure ReadAtom where
  stringUid : Option Bytes := none
  uid : Nat := 0
  start : Int := -1
  stop : Int := -1
  displays : List ReadDisplay := []
  deriving DecidableEq, Repr

/-- The body of the loop of `Chapters::Atom::Parse`, mkvparser/mkvparser.cc:3509-3557.  A positive status of `Read`
does not stop the loop; the string is then gone. -/
def atomStep (r : Rdr) (_ : Nat) (h : Hdr) (a : ReadAtom) : Res ReadAtom :=
  if h.size = 0 then .ok a
  else if h.id = kMkvChapterDisplay then do
    let d ← displayParse r h.pos h.size
    .ok { a with displays := a.displays ++ [d] }
  else if h.id = kMkvChapterStringUID then
    match unserializeString r h.pos h.size with
    | .ok s => .ok { a with stringUid := some s }
    | .err c => if c < 0 then .err c else .ok { a with stringUid := none }
    | .ub => .ub
  else if h.id = kMkvChapterUID then do
    let v ← unserializeInt r h.pos h.size
    .ok { a with uid := toU64 v }
  else if h.id = kMkvChapterTimeStart then do
    let v ← uintAt r h
    Res.refuse (v < 0) v
    .ok { a with start := v }
  else if h.id = kMkvChapterTimeEnd then do
    let v ← uintAt r h
    Res.refuse (v < 0) v
    .ok { a with stop := v }
  else .ok a

/-- `Chapters::Atom::Parse`, mkvparser/mkvparser.cc:3506-3562. -/
def atomParse (r : Rdr) (start size : Nat) : Res ReadAtom :=
  walk r (start + size) (atomStep r) start {}

/-- The body of the loop of `Chapters::Edition::Parse`, mkvparser/mkvparser.cc:3376-3397. -/
def editionStep (r : Rdr) (_ : Nat) (h : Hdr) (as : List ReadAtom) : Res (List ReadAtom) :=
  if h.size = 0 then .ok as
  else if h.id = kMkvChapterAtom then do
    let a ← atomParse r h.pos h.size
    .ok (as ++ [a])
  else .ok as

/-- `Chapters::Edition::Parse`, mkvparser/mkvparser.cc:3372-3402. -/
def editionParse (r : Rdr) (start size : Nat) : Res (List ReadAtom) :=
  walk r (start + size) (editionStep r) start []

/-- The body of the loop of `Chapters::Parse`, mkvparser/mkvparser.cc:3260-3281. -/
def chaptersStep (r : Rdr) (_ : Nat) (h : Hdr) (es : List (List ReadAtom)) : Res (List (List ReadAtom)) :=
  if h.size = 0 then .ok es
  else if h.id = kMkvEditionEntry then do
    let e ← editionParse r h.pos h.size
    .ok (es ++ [e])
  else .ok es

/-- `Chapters::Parse`, mkvparser/mkvparser.cc:3254-3286. -/
def chaptersParse (r : Rdr) (start size : Nat) : Res (List (List ReadAtom)) :=
  walk r (start + size) (chaptersStep r) start []

/-- `Chapters::Atom::GetTime`, mkvparser/mkvparser.cc:3564-3590, with the timecode scale of the segment's Info (`none`
if there is none).  A product outside `long long` is undefined. -/
def ReadAtom.getTime (scale : Option Int) (timecode : Int) : Res Int :=
  match scale with
  | none => .ok (-1)
  | some k =>
    if k < 1 then .ok (-1)
    else if timecode < 0 then .ok (-1)
    else if k * timecode < 2 ^ 63 then .ok (k * timecode)
    else .ub

/-! ### Tags -/

/-- `Tags::SimpleTag`, mkvparser/mkvparser.h:740-759. -/
structure ReadSimpleTag where
  name : Option Bytes := none
  string : Option Bytes := none
  deriving DecidableEq, Repr

/-- The body of the loop of `Tags::SimpleTag::Parse`, mkvparser/mkvparser.cc:3932-3958. -/
def simpleTagStep (r : Rdr) (_ : Nat) (h : Hdr) (t : ReadSimpleTag) : Res ReadSimpleTag :=
  if h.size = 0 then .ok t
  else if h.id = kMkvTagName then do
    let s ← unserializeString r h.pos h.size
    .ok { t with name := some s }
  else if h.id = kMkvTagString then do
    let s ← unserializeString r h.pos h.size
    .ok { t with string := some s }
  else .ok t

/-- `Tags::SimpleTag::Parse`, mkvparser/mkvparser.cc:3928-3963. -/
def simpleTagParse (r : Rdr) (start size : Nat) : Res ReadSimpleTag :=
  walk r (start + size) (simpleTagStep r) start {}

/-- The body of the loop of `Tags::Tag::Parse`, mkvparser/mkvparser.cc:3841-3862. -/
def tagStep (r : Rdr) (_ : Nat) (h : Hdr) (ts : List ReadSimpleTag) : Res (List ReadSimpleTag) :=
  if h.size = 0 then .ok ts
  else if h.id = kMkvSimpleTag then do
    let t ← simpleTagParse r h.pos h.size
    .ok (ts ++ [t])
  else .ok ts

/-- `Tags::Tag::Parse`, mkvparser/mkvparser.cc:3838-3867. -/
def tagParse (r : Rdr) (start size : Nat) : Res (List ReadSimpleTag) :=
  walk r (start + size) (tagStep r) start []

/-- The body of the loop of `Tags::Parse`, mkvparser/mkvparser.cc:3725-3746. -/
def tagsStep (r : Rdr) (_ : Nat) (h : Hdr) (ts : List (List ReadSimpleTag)) : Res (List (List ReadSimpleTag)) :=
  if h.size = 0 then .ok ts
  else if h.id = kMkvTag then do
    let t ← tagParse r h.pos h.size
    .ok (ts ++ [t])
  else .ok ts

/-- `Tags::Parse`, mkvparser/mkvparser.cc:3719-3752. -/
def tagsParse (r : Rdr) (start size : Nat) : Res (List (List ReadSimpleTag)) :=
  walk r (start + size) (tagsStep r) start []

end Verif.Par

/-
The memory of the chapters, the tags and the segment information in mkvparser: the arrays that grow by copying, the texts, failing reads and
allocations, and the destructors.

Simplification: the elements are given as a list of what the reader finds, instead of as bytes (`ParserChapters` has the parsing of the
bytes).  An object that is parsed is put into its array after it was parsed, where the code puts it in before; nobody looks in between.
The heap and the arrays are those of `MuxerBuild`: the functions that make arrays grow are the same text in mkvmuxer and mkvparser.
-/
import Verif.Model.MuxerBuild

namespace Verif.Par.Texts
open Verif Verif.Mux.Build

/-- The texts of a display (`m_string`, `m_language`, `m_country`), a simple tag (`m_tag_name`, `m_tag_string`) or the segment information
(`m_pMuxingAppAsUTF8`, `m_pWritingAppAsUTF8`, `m_pTitleAsUTF8`). -/
inductive Which where
  | first
  | second
  | third
  deriving DecidableEq

structure Three where
  first : Str := none
  second : Str := none
  third : Str := none

def Three.get (t : Three) : Which → Str
  | .first => t.first
  | .second => t.second
  | .third => t.third

def Three.set (t : Three) (s : Str) : Which → Three
  | .first => { t with first := s }
  | .second => { t with second := s }
  | .third => { t with third := s }

/-- A child of such an element.  `read` is what the reader answers when it is asked for the text.  `other` is any element that changes no
text: in displays and simple tags also one without payload.  `bad` is one whose header cannot be parsed, that goes past the end, or whose
number is refused (at the end of the segment information it also stands for the check of the duration).  Statuses are exact only in
their sign. -/
inductive LeafPart where
  | text (w : Which) (s : Bytes) (read : Int)
  | other
  | bad
  deriving DecidableEq

/-- `kStringElementSizeLimit`, mkvparser/mkvparser.cc:26. -/
def textLimit : Nat := 20 * 1000 * 1000

/-- `UnserializeString`, mkvparser/mkvparser.cc:324-352: the status, and the text afterwards. -/
def unserializeString (can : Nat → Bool) (s : Bytes) (read : Int) (old : Str) (m : Mem) : Res (Int × Str × Mem) := do
  let m ← m.free (old.map (·.1))
  if s.length > textLimit then .ok (-2, none, m)
  else
    match m.alloc can with
    | (none, m) => .ok (-2, none, m)
    | (some a, m) =>
      if read ≠ 0 then do
        let m ← m.free (some a)
        .ok (read, none, m)
      else .ok (0, some (a, s), m)

/-- `Chapters::Display::Parse`, `Tags::SimpleTag::Parse` and `SegmentInfo::Parse`, mkvparser/mkvparser.cc:3658-3698, 3928-3963, 3987-4054. -/
def parseTexts (can : Nat → Bool) : List LeafPart → Three → Mem → Res (Int × Three × Mem)
  | [], t, m => .ok (0, t, m)
  | .text w s read :: ps, t, m => do
    let (status, s, m) ← unserializeString can s read (t.get w) m
    if status ≠ 0 then .ok (status, t.set s w, m)
    else parseTexts can ps (t.set s w) m
  | .other :: ps, t, m => parseTexts can ps t m
  | .bad :: _, t, m => .ok (-2, t, m)

/-- `Chapters::Display::Clear`, `Tags::SimpleTag::Clear` and `SegmentInfo::~SegmentInfo`, mkvparser/mkvparser.cc:3647-3656, 3920-3926,
3976-3985. -/
def Three.clear (t : Three) (m : Mem) : Res Mem := do
  let m ← m.free (t.first.map (·.1))
  let m ← m.free (t.second.map (·.1))
  m.free (t.third.map (·.1))

/-- A child of an element that holds an array of objects. -/
inductive Part (P : Type) where
  | child (p : P)
  | other
  | bad

/-- `ExpandTagsArray`, `m_tags[m_tags_count++]`, `Init` and `Parse`: `Chapters::ParseEdition`, `Chapters::Edition::ParseAtom`,
`Chapters::Atom::ParseDisplay`, `Tags::ParseTag` and `Tags::Tag::ParseSimpleTag`, mkvparser/mkvparser.cc:3322-3330, 3404-3413, 3592-3601,
3788-3796, 3869-3878, with the functions that make the arrays grow, mkvparser/mkvparser.cc:3300-3320, 3415-3435, 3603-3623, 3766-3786,
3880-3900. -/
def addOne {α : Type} (can : Nat → Bool) (parse : Mem → Res (Int × α × Mem)) (x : Arr α) (m : Mem) : Res (Int × Arr α × Mem) := do
  let (b, x, m) ← x.expand can m
  if !b then .ok (-1, x, m)
  else do
    let (status, v, m) ← parse m
    let x ← x.push v
    .ok (status, x, m)

/-- `Chapters::Parse`, `Chapters::Edition::Parse`, `Tags::Parse` and `Tags::Tag::Parse`, mkvparser/mkvparser.cc:3254-3286, 3372-3402,
3719-3752, 3838-3867. -/
def parseArr {P α : Type} (can : Nat → Bool) (parse : P → Mem → Res (Int × α × Mem)) : List (Part P) → Arr α → Mem → Res (Int × Arr α × Mem)
  | [], x, m => .ok (0, x, m)
  | .child p :: ps, x, m => do
    let (status, x, m) ← addOne can (parse p) x m
    if status < 0 then .ok (status, x, m)
    else parseArr can parse ps x m
  | .other :: ps, x, m => parseArr can parse ps x m
  | .bad :: _, x, m => .ok (-2, x, m)

/-- `Chapters::Atom`: `m_string_uid` and `m_displays`.  (The numbers need no memory.) -/
structure AtomMem where
  uid : Str := none
  displays : Arr Three := {}

/-- A child of a `ChapterAtom` element. -/
inductive AtomPart where
  | display (ps : List LeafPart)
  | uid (s : Bytes) (read : Int)
  | other
  | bad

/-- `Chapters::Atom::Parse`, mkvparser/mkvparser.cc:3506-3562. -/
def parseAtom (can : Nat → Bool) : List AtomPart → AtomMem → Mem → Res (Int × AtomMem × Mem)
  | [], x, m => .ok (0, x, m)
  | .display ps :: as, x, m => do
    let (status, ds, m) ← addOne can (parseTexts can ps {}) x.displays m
    if status < 0 then .ok (status, { x with displays := ds }, m)
    else parseAtom can as { x with displays := ds } m
  | .uid s read :: as, x, m => do
    let (status, s, m) ← unserializeString can s read x.uid m
    if status < 0 then .ok (status, { x with uid := s }, m)
    else parseAtom can as { x with uid := s } m
  | .other :: as, x, m => parseAtom can as x m
  | .bad :: _, x, m => .ok (-2, x, m)

/-- `Chapters::Atom::Clear`, mkvparser/mkvparser.cc:3491-3504. -/
def AtomMem.clear (x : AtomMem) (m : Mem) : Res Mem := do
  let m ← m.free (x.uid.map (·.1))
  x.displays.clear Three.clear m

abbrev TagsIn := List (Part (List (Part (List LeafPart))))
abbrev ChaptersIn := List (Part (List (Part (List AtomPart))))

/-- `Tags::Parse`, mkvparser/mkvparser.cc:3719-3752, on a new object. -/
def parseTags (can : Nat → Bool) (es : TagsIn) (m : Mem := {}) : Res (Int × Arr (Arr Three) × Mem) :=
  parseArr can (fun t => parseArr can (fun s => parseTexts can s {}) t {}) es {} m

/-- `Tags::~Tags` and `Tags::Tag::Clear`, mkvparser/mkvparser.cc:3711-3717, 3826-3836. -/
def destroyTags (x : Arr (Arr Three)) (m : Mem) : Res Mem := x.clear (Arr.clear Three.clear) m

/-- `Chapters::Parse`, mkvparser/mkvparser.cc:3254-3286, on a new object. -/
def parseChapters (can : Nat → Bool) (es : ChaptersIn) (m : Mem := {}) : Res (Int × Arr (Arr AtomMem) × Mem) :=
  parseArr can (fun t => parseArr can (fun s => parseAtom can s {}) t {}) es {} m

/-- `Chapters::~Chapters` and `Chapters::Edition::Clear`, mkvparser/mkvparser.cc:3246-3252, 3360-3370. -/
def destroyChapters (x : Arr (Arr AtomMem)) (m : Mem) : Res Mem := x.clear (Arr.clear AtomMem.clear) m

/-- `SegmentInfo::Parse`, mkvparser/mkvparser.cc:3987-4054, on a new object (the texts only). -/
def parseInfo (can : Nat → Bool) (ps : List LeafPart) : Res (Int × Three × Mem) := parseTexts can ps {} {}

end Verif.Par.Texts

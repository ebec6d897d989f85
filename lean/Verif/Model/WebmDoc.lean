/-
`WebmParser` (webm_parser/src/webm_parser.cc): the top-level elements of a document, announcing a
seek, and sticky parsing errors.
-/
import Verif.Model.WebmGrammar
import Verif.Model.Ancestory

namespace Verif.Web
open Verif

/-- States of `DocumentParser`, webm_parser/src/webm_parser.cc:187-201. -/
inductive DState where
  | begin | readId | readSize | validating | action | initing | body | ended
  deriving DecidableEq, Repr

/-- What a `DocumentParser` is built from: the parsers of top-level elements and
`Ancestory::ById`. -/
structure Top where
  kids : Kids
  root : Nat → Bool
  anc : Nat → Option (List Nat)

/-- The parsers of `DocumentParser`, webm_parser/src/webm_parser.cc:83-131, :206-216. -/
def webmTop : Top :=
  { kids := topKids, root := fun id => id == Id.kSegment || id == Id.kEbml, anc := ancestory }

/-- `DocumentParser`, webm_parser/src/webm_parser.cc:203-240. -/
structure Doc (kid : Nat → Kid) where
  state : DState := .begin
  idp : IdP := {}
  szp : SizeP := {}
  child : ChildSt kid := .none
  cm : Meta := ⟨0, 0, 0, 0⟩
  skip : Bool := false
  didSeek : Bool := false

section
variable {kid : Nat → Kid}

/-- `PrepareForNextChild`, webm_parser/src/webm_parser.cc:243-248. -/
def Doc.prepare (d : Doc kid) : Doc kid :=
  { d with idp := {}, szp := {}, child := .none, skip := false }

/-- `DocumentParser::DidSeek`, webm_parser/src/webm_parser.cc:25-29. -/
def Doc.seeked (d : Doc kid) : Doc kid := { d.prepare with didSeek := true, state := .begin }

/-- State `kReadingChildId`, webm_parser/src/webm_parser.cc:54-68. -/
def Doc.readId (x : Doc kid × Log) (s : Src) : Pass (Doc kid × Log) :=
  match x.1.idp.feed s with
  | (st, a, s', k) =>
    let d := { x.1 with
      idp := a, cm := { x.1.cm with headerSize := x.1.cm.headerSize + k } }
    if st.completedOk then (none, ({ d with state := .readSize }, x.2), s', k)
    else if st = .endOfFile ∧ s'.pos = d.cm.position then
      (none, ({ d with state := .ended }, x.2), s', k)
    else (some st, (d, x.2), s', k)

/-- State `kReadingChildSize`, webm_parser/src/webm_parser.cc:70-81. -/
def Doc.readSize (x : Doc kid × Log) (s : Src) : Pass (Doc kid × Log) :=
  match SizeP.feed x.1.szp s with
  | (st, z, s', k) =>
    let d := { x.1 with
      szp := z, cm := { x.1.cm with headerSize := x.1.cm.headerSize + k } }
    if st.completedOk then
      (none, ({ d with
        cm := { d.cm with id := d.idp.id, size := SizeP.size z }
        state := .validating }, x.2), s', k)
    else (some st, (d, x.2), s', k)

/-- The last part of `kValidatingChildSize`, webm_parser/src/webm_parser.cc:121-130. -/
def Doc.validateOther (d : Doc kid) : Option Status × Doc kid :=
  if d.cm.id ≠ kVoid ∧ d.cm.size = kUnknownElementSize then (some .indefiniteUnknownElement, d)
  else (none, { d with state := .action })

/-- State `kValidatingChildSize`, webm_parser/src/webm_parser.cc:83-131; `diverged` where the code
asserts. -/
def Doc.validate (root : Nat → Bool) (anc : Nat → Option (List Nat)) (d : Doc kid) :
    Option Status × Doc kid :=
  if root d.cm.id then (none, { d with didSeek := false, state := .action })
  else if d.didSeek then
    match anc d.cm.id with
    | none => d.validateOther
    | some [] => (some .diverged, d)
    | some (a :: rest) =>
      match (kid a).E.seek rest d.cm with
      | none => (some .diverged, d)
      | some c =>
        (none, { d with
          child := .kid a c, cm := unseen a, didSeek := false, skip := false, state := .body })
  else d.validateOther

/-- State `kInitializingChildParser`, webm_parser/src/webm_parser.cc:150-158; which parser is used
is decided at :86-128 and :140-145. -/
def Doc.initChild (d : Doc kid) : Option Status × Doc kid :=
  if d.skip ∧ d.cm.size ≠ kUnknownElementSize then
    match skipEP.init d.cm d.cm.size with
    | .ok c => (none, { d with child := .skip c, state := .body })
    | .error e => (some e, d)
  else
    match (kid d.cm.id).E.init d.cm d.cm.size with
    | .ok c => (none, { d with child := .kid d.cm.id c, state := .body })
    | .error e => (some e, d)

/-- After a top-level element, webm_parser/src/webm_parser.cc:166-175. -/
def Doc.nextChild (d : Doc kid) (pos : Nat) : Doc kid :=
  match d.child.cached with
  | some c => { d.prepare with cm := { c with position := pos }, state := .validating }
  | none => { d.prepare with cm := { d.cm with headerSize := 0, position := pos }, state := .readId }

/-- One pass of `DocumentParser::Feed`, webm_parser/src/webm_parser.cc:34-183. -/
def Doc.body (cb : Cb) (root : Nat → Bool) (anc : Nat → Option (List Nat)) (x : Doc kid × Log)
    (s : Src) : Pass (Doc kid × Log) :=
  match x.1.state with
  | .begin =>
    (none, ({ x.1 with
      cm := { x.1.cm with headerSize := 0, position := s.pos }, state := .readId }, x.2), s, 0)
  | .readId => Doc.readId x s
  | .readSize => Doc.readSize x s
  | .validating => ((x.1.validate root anc).1, ((x.1.validate root anc).2, x.2), s, 0)
  | .action =>
    match cb.call x.1.skip x.2 (.element x.1.cm) with
    | (st, sk, L') =>
      if st.completedOk then (none, ({ x.1 with skip := sk, state := .initing }, L'), s, 0)
      else (some st, ({ x.1 with skip := sk }, L'), s, 0)
  | .initing => (x.1.initChild.1, (x.1.initChild.2, x.2), s, 0)
  | .body =>
    match x.1.child.feed x.1.skip x.2 s with
    | (st, y, s', k) =>
      if st.completedOk then (none, (Doc.nextChild { x.1 with child := y.1 } s'.pos, y.2), s', k)
      else (some st, ({ x.1 with child := y.1 }, y.2), s', k)
  | .ended => (some .okCompleted, x, s, 0)

/-- Phase numbers, only used for the loop measure. -/
def Doc.rank (d : Doc kid) : Nat :=
  match d.state with
  | .begin => 60
  | .body => if d.child.count > 0 then 40 else 20
  | .validating => 26 | .action => 25 | .initing => 24
  | .readId => 10 | .readSize => 8
  | .ended => 1

/-- Loop measure: bytes left, then phase. -/
def Doc.measure (x : Doc kid × Log) (n : Nat) : Nat := 64 * n + x.1.rank

/-- `DocumentParser::Feed`, webm_parser/src/webm_parser.cc:34-183. -/
def Doc.feed (cb : Cb) (root : Nat → Bool) (anc : Nat → Option (List Nat)) :
    Doc kid × Log → Src → Fed (Doc kid × Log) :=
  loopFeed (Doc.body cb root anc) Doc.measure

/-- `WebmParser`, webm_parser/include/webm/webm_parser.h: the document parser and
`parsing_status_`. -/
structure WebmP (kid : Nat → Kid) where
  doc : Doc kid := {}
  status : Status := .okPartial

/-- `WebmParser::DidSeek`, webm_parser/src/webm_parser.cc:258-261. -/
def WebmP.didSeek (p : WebmP kid) : WebmP kid := { doc := p.doc.seeked, status := .okPartial }

/-- `WebmParser::Feed`, webm_parser/src/webm_parser.cc:263-272. -/
def WebmP.feedWith (cb : Cb) (root : Nat → Bool) (anc : Nat → Option (List Nat))
    (x : WebmP kid × Log) (s : Src) : Fed (WebmP kid × Log) :=
  if x.1.status.isParsingError then (x.1.status, x, s, 0)
  else
    match Doc.feed cb root anc (x.1.doc, x.2) s with
    | (st, y, s', k) => (st, ({ doc := y.1, status := st }, y.2), s', k)

end

/-- The parser of the real grammar, with user callback `cb`. -/
abbrev Parser (cb : Cb) := WebmP (webmTop.kids.find cb)

/-- `WebmParser::Feed` with the real grammar. -/
def Parser.feed (cb : Cb) (x : Parser cb × Log) (s : Src) : Fed (Parser cb × Log) :=
  WebmP.feedWith cb webmTop.root webmTop.anc x s

end Verif.Web

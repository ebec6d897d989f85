/-
Model of the element tree of webm_parser: `ElementParser` and its implementations for scalars,
blocks and master elements, with the callback.

An `EP` is an `ElementParser`.  The callback is part of the modelled system: it is any function
of the calls made so far (`Log`) and of the call being made, so it may keep state of any kind.
`OnFrame`, `OnVoid` and `OnUnknownElement` read all the bytes they are offered and are recorded
once they have them.  A feed with `quiet = true` is a feed with a `SkipCallback`
(webm_parser/src/skip_callback.h:23-66), which answers `kSkip` everywhere and is not recorded.

Byte counters are unbounded here; the code uses `uint64`.
-/
import Verif.Model.WebmBlock

namespace Verif.Web
open Verif

/-- The value collected by a parser: of a scalar, of a block, or the children handed to a
`MasterValueParser`, in the order they were completed (the members of the structures of
webm_parser/include/webm/dom_types.h are a function of that list; a single member keeps the
last one).  `dflt` is a scalar of size zero: the member's default. -/
inductive Val where
  | dflt
  | nat (n : Nat)
  | flag (b : Bool)
  | float (v : Option (Nat × Nat))
  | bytes (b : Bytes)
  | block (v : BlockVal)
  | nil
  | cons (id : Nat) (v rest : Val)
  deriving DecidableEq, Repr

/-- Append a child to the value of a master element. -/
def Val.push : Val → Nat → Val → Val
  | .cons i v r, id, x => .cons i v (r.push id x)
  | _, id, x => .cons id x .nil

/-- A call of the user's callback (webm_parser/include/webm/callback.h). -/
inductive Ev where
  /-- `OnElementBegin` -/
  | element (m : Meta)
  /-- `OnUnknownElement`, with the bytes it was given -/
  | unknown (m : Meta) (data : Bytes)
  /-- `OnVoid`, with the bytes it was given -/
  | void (m : Meta) (data : Bytes)
  /-- `OnSegmentBegin`, `OnClusterBegin`, `OnBlockGroupBegin` -/
  | start (m : Meta) (v : Val)
  /-- `OnEbml`, `OnSeek`, `OnInfo`, `OnClusterEnd`, `OnBlockGroupEnd`, `OnTrackEntry`,
  `OnCuePoint`, `OnEditionEntry`, `OnTag`, `OnSegmentEnd` -/
  | complete (m : Meta) (v : Val)
  /-- `OnSimpleBlockBegin`, `OnBlockBegin` -/
  | blockStart (m : Meta) (v : BlockVal)
  /-- `OnFrame`, with the announced position and size, and the bytes it was given -/
  | frame (pos size : Nat) (data : Bytes)
  /-- `OnSimpleBlockEnd`, `OnBlockEnd` -/
  | blockEnd (m : Meta) (v : BlockVal)
  deriving DecidableEq, Repr

/-- The calls the user's callback has received, oldest first. -/
abbrev Log := List Ev

/-- A callback: the status it returns and whether it answers `Action::kSkip` (ignored for calls
without an action), given the calls before and the call itself. -/
abbrev Cb := Log → Ev → Status × Bool

/-- Make a call: on the user's callback, or (`quiet`) on a `SkipCallback`. -/
def Cb.call (cb : Cb) (quiet : Bool) (L : Log) (e : Ev) : Status × Bool × Log :=
  if quiet then (.okCompleted, true, L) else ((cb L e).1, (cb L e).2, L ++ [e])

/-- `ElementParser`, webm_parser/src/element_parser.h:53-103: `Init`, `InitAfterSeek` (`none`
where the code asserts), `Feed`, `GetCachedMetadata`, `WasSkipped`, the value, the size it was
initialised with, and (not in the code for scalars) the bytes read since `Init`. -/
structure EP where
  σ : Type
  init : Meta → Nat → Except Status σ
  seek : List Nat → Meta → Option σ
  feed : Bool → σ × Log → Src → Fed (σ × Log)
  cached : σ → Option Meta
  skipped : σ → Bool
  value : σ → Val
  size : σ → Nat
  count : σ → Nat

/-! ### Scalars -/

/-- State of a scalar parser: declared size, parser, bytes read. -/
structure LeafSt (τ : Type) where
  size : Nat
  t : τ
  n : Nat

/-- A parser that makes no calls: the scalars of `Verif.Model.WebmScalar`
(webm_parser/src/int_parser.h, bool_parser.h, float_parser.cc, date_parser.cc, byte_parser.h,
id_element_parser.cc). -/
def leafEP {τ : Type} (ini : Nat → Except Status τ) (fd : τ → Src → Fed τ) (val : τ → Val) : EP where
  σ := LeafSt τ
  init m _ := match ini m.size with
    | .ok t => .ok { size := m.size, t := t, n := 0 }
    | .error e => .error e
  seek _ _ := none
  feed _ x s := match fd x.1.t s with
    | (st, t, s', k) => (st, ({ x.1 with t := t, n := x.1.n + k }, x.2), s', k)
  cached _ := none
  skipped _ := false
  value x := if x.size = 0 then .dflt else val x.t
  size x := x.size
  count x := x.n

/-- `SkipParser`, webm_parser/src/skip_parser.cc:19-60. -/
def skipEP : EP :=
  leafEP (fun size => if size = kUnknownElementSize then .error .invalidElementSize else .ok size)
    skipFeed (fun _ => .nil)

/-- State of `VirtualBlockParser`: the declared size, the header parser, `total_bytes_read_`. -/
structure VirtP where
  size : Nat
  hdr : BlockHdr := {}
  total : Nat := 0

/-- `VirtualBlockParser::Init`, webm_parser/src/virtual_block_parser.cc:17-29. -/
def VirtP.init (size : Nat) : Except Status VirtP :=
  if size = kUnknownElementSize ∨ size < 4 then .error .invalidElementSize else .ok { size := size }

/-- `VirtualBlockParser::Feed`, webm_parser/src/virtual_block_parser.cc:31-71.  Fed again after
the header, the header parser answers at once, which is what the states `kValidatingSize` and
`kDone` do. -/
def VirtP.feed (p : VirtP) (s : Src) : Fed VirtP :=
  match p.hdr.feed s with
  | (st, h, s', k) =>
    let p' := { p with hdr := h, total := p.total + k }
    if st.completedOk then
      if p.size < p'.total then (.invalidElementValue, p', s', k) else (.okCompleted, p', s', k)
    else (st, p', s', k)

/-! ### Void and unknown elements -/

/-- State of `VoidParser` and `UnknownParser`: the element, the bytes handed over so far. -/
structure DataSt where
  m : Meta
  buf : Bytes

/-- `VoidParser::Feed` (webm_parser/src/void_parser.cc:37-49) and `UnknownParser::Feed`
(webm_parser/src/unknown_parser.cc:34-46). -/
def DataSt.feed (cb : Cb) (ev : Meta → Bytes → Ev) (quiet : Bool) (x : DataSt × Log) (s : Src) :
    Fed (DataSt × Log) :=
  match onFrame x.1.m.size x.1.buf s with
  | (st, buf, s', k) =>
    if st.completedOk then
      match cb.call quiet x.2 (ev x.1.m buf) with
      | (st', _, L') => (st', ({ x.1 with buf := buf }, L'), s', k)
    else (st, ({ x.1 with buf := buf }, x.2), s', k)

/-- `VoidParser` (webm_parser/src/void_parser.cc:20-49) and `UnknownParser`
(webm_parser/src/unknown_parser.cc:17-46). -/
def dataEP (cb : Cb) (bad : Status) (ev : Meta → Bytes → Ev) : EP where
  σ := DataSt
  init m _ := if m.size = kUnknownElementSize then .error bad else .ok { m := m, buf := [] }
  seek _ _ := none
  feed := DataSt.feed cb ev
  cached _ := none
  skipped _ := false
  value _ := .nil
  size x := x.m.size
  count x := x.buf.length

/-- `VoidParser`. -/
def voidEP (cb : Cb) : EP := dataEP cb .invalidElementSize .void

/-- `UnknownParser`. -/
def unknownEP (cb : Cb) : EP := dataEP cb .indefiniteUnknownElement .unknown

/-! ### Blocks -/

/-- A block parser and the bytes read since `Init`. -/
structure BlkSt where
  p : BlockP
  n : Nat

/-- The `OnFrame` call recorded last. -/
def frameEv (p : BlockP) : Ev :=
  match p.log.getLast? with
  | some (.frame pos size _ data) => .frame pos size data
  | _ => .frame 0 0 []

/-- The bytes handed to that call. -/
def frameData (p : BlockP) : Bytes :=
  match p.log.getLast? with
  | some (.frame _ _ _ data) => data
  | _ => []

/-- One pass of `BasicBlockParser::Feed` with a callback, webm_parser/src/block_parser.cc:77-275:
like `BlockP.body`, with the calls `OnBlockBegin` (:130-149), `OnFrame` (:251-267) and
`OnBlockEnd` (:269-272) made on the callback.  When `OnFrame` refuses, the parser returns before
moving on to the next frame. -/
def BlkSt.body (cb : Cb) (simple quiet : Bool) (x : BlkSt × Log) (s : Src) : Pass (BlkSt × Log) :=
  if x.1.p.state = .gettingAction then
    match cb.call quiet x.2 (.blockStart x.1.p.elem x.1.p.value) with
    | (st, sk, L') =>
      if st.completedOk then (none, ({ x.1 with p := x.1.p.afterAction sk }, L'), s, 0)
      else (some st, (x.1, L'), s, 0)
  else
    match BlockP.body simple false x.1.p s with
    | (r, p', s', k) =>
      if x.1.p.state = .readingFrames ∧ x.1.p.cur < x.1.p.laces.length ∧ r = none then
        match cb.call quiet x.2 (frameEv p') with
        | (st, _, L') =>
          if st.completedOk then (none, (⟨p', x.1.n + k⟩, L'), s', k)
          else (some st, (⟨{ x.1.p with buf := frameData p' }, x.1.n + k⟩, L'), s', k)
      else if x.1.p.state = .done then
        match cb.call quiet x.2 (.blockEnd x.1.p.elem x.1.p.value) with
        | (st, _, L') => (some st, (x.1, L'), s, 0)
      else (r, (⟨p', x.1.n + k⟩, x.2), s', k)

/-- `BlockParser` and `SimpleBlockParser`, webm_parser/src/block_parser.cc:62-287. -/
def blockEP (cb : Cb) (simple : Bool) : EP where
  σ := BlkSt
  init m _ := match BlockP.init m with
    | .ok p => .ok ⟨p, 0⟩
    | .error e => .error e
  seek _ _ := none
  feed quiet := loopFeed (BlkSt.body cb simple quiet) (fun x n => x.1.p.measure n)
  cached _ := none
  skipped x := x.p.state == .skipping
  value x := .block x.p.value
  size x := x.p.elem.size
  count x := x.n

/-! ### Master elements -/

/-- When `OnParseStarted` (a `…Begin` call) is made. -/
inductive Start where
  /-- never: the default `OnParseStarted`, or a plain `MasterParser` -/
  | none
  /-- at the first `Feed`: `BlockGroupParser` (webm_parser/src/block_group_parser.h:43-58),
  `SegmentParser` (webm_parser/src/segment_parser.cc:51-82) -/
  | first
  /-- at the first child marked `UseAsStartEvent`, or else at the end: `ClusterParser`
  (webm_parser/src/cluster_parser.h:24-46) -/
  | tagged
  deriving DecidableEq, Repr

/-- What distinguishes one master parser from another, besides its children. -/
structure Wrap where
  id : Nat
  start : Start
  /-- whether `OnParseCompleted` calls the callback -/
  complete : Bool
  /-- whether `GetCachedMetadata` and `WasSkipped` answer; `RecursiveParser`
  (webm_parser/src/recursive_parser.h:26-89) does not pass them on -/
  forward : Bool := true
  deriving DecidableEq, Repr

/-- A child of a master parser: its parser, whether it is marked `UseAsStartEvent`, and whether
its value is handed to the parent (webm_parser/src/master_value_parser.h:420-477). -/
structure Kid where
  E : EP
  start : Bool
  consume : Bool

/-- `MasterParser::State`, webm_parser/src/master_parser.h:123-141, with three states for the
calls made by `MasterValueParser` and its subclasses: `begin`, `ended` and `complete`. -/
inductive MState where
  | begin | firstId | moreId | size | validating | action | initing | body | childDone | ended
  | complete
  deriving DecidableEq, Repr

/-- `child_parser_` and the state of the parser it points to. -/
inductive ChildSt (kid : Nat → Kid) where
  | none
  | skip (c : skipEP.σ)
  | kid (id : Nat) (c : (kid id).E.σ)

/-- `MasterParser` (webm_parser/src/master_parser.h:143-205) together with the
`MasterValueParser` around it (webm_parser/src/master_value_parser.h:386-400): `childSkip` is
the former's `action_ == kSkip`, `skip` the latter's, `started` is `started_done_`. -/
structure MSt (kid : Nat → Kid) where
  me : Meta
  maxSize : Nat
  state : MState
  total : Nat := 0
  idp : IdP := {}
  szp : SizeP := {}
  cm : Meta := ⟨0, 0, 0, 0⟩
  child : ChildSt kid := .none
  childSkip : Bool := false
  skip : Bool := false
  started : Bool := false
  value : Val := .nil
  cached : Bool := false

section
variable {kid : Nat → Kid}

/-- `child_parser_->Feed`. -/
def ChildSt.feed (quiet : Bool) (c : ChildSt kid) (L : Log) (s : Src) : Fed (ChildSt kid × Log) :=
  match c with
  | .none => (.diverged, (.none, L), s, 0)
  | .skip c => match skipEP.feed quiet (c, L) s with
    | (st, x, s', k) => (st, (.skip x.1, x.2), s', k)
  | .kid id c => match (kid id).E.feed quiet (c, L) s with
    | (st, x, s', k) => (st, (.kid id x.1, x.2), s', k)

/-- `child_parser_->GetCachedMetadata`. -/
def ChildSt.cached : ChildSt kid → Option Meta
  | .kid id c => (kid id).E.cached c
  | _ => .none

/-- Bytes read by the child since it was initialised. -/
def ChildSt.count : ChildSt kid → Nat
  | .none => 0
  | .skip c => skipEP.count c
  | .kid id c => (kid id).E.count c

/-- Whether the child's parser is one marked `UseAsStartEvent`. -/
def ChildSt.starts : ChildSt kid → Bool
  | .kid id _ => (kid id).start
  | _ => false

/-- `ChildParser::Feed` after completion, webm_parser/src/master_value_parser.h:445-456. -/
def ChildSt.consume (c : ChildSt kid) (parentSkip : Bool) (v : Val) : Val :=
  match c with
  | .kid id c =>
    if (kid id).consume && !parentSkip && !(kid id).E.skipped c
    then v.push id ((kid id).E.value c) else v
  | _ => v

/-- `byte_cap`, webm_parser/src/master_parser.cc:161-165, :229-233. -/
def MSt.cap (m : MSt kid) : Nat :=
  if m.me.size = kUnknownElementSize then m.maxSize else m.me.size

/-- `MasterParser::Init`, webm_parser/src/master_parser.cc:26-46, and `MasterValueParser::Init`,
webm_parser/src/master_value_parser.h:62-75 (`SegmentParser::Init`,
webm_parser/src/segment_parser.cc:31-38). -/
def MSt.init (w : Wrap) (me : Meta) (maxSize : Nat) : MSt kid :=
  { me := me
    maxSize := if me.size = kUnknownElementSize then maxSize else me.size
    state := if w.start = .first then .begin else if me.size = 0 then .ended else .firstId }

/-- `kUnknownHeaderSize`, webm_parser/include/webm/element.h:185-186. -/
def kUnknownHeaderSize : Nat := 2 ^ 32 - 1

/-- `kUnknownElementPosition`, webm_parser/include/webm/element.h:199-200. -/
def kUnknownElementPosition : Nat := 2 ^ 64 - 1

/-- An ancestor whose header was not read. -/
def unseen (id : Nat) : Meta := ⟨id, kUnknownHeaderSize, kUnknownElementSize, kUnknownElementPosition⟩

/-- `MasterParser::InitAfterSeek`, webm_parser/src/master_parser.cc:48-74,
`MasterValueParser::InitAfterSeek`, webm_parser/src/master_value_parser.h:77-82,
`SegmentParser::InitAfterSeek`, webm_parser/src/segment_parser.cc:40-49.  `none`: the code
asserts. -/
def MSt.seek (w : Wrap) (known : Nat → Bool) (anc : List Nat) (m : Meta) : Option (MSt kid) :=
  match anc with
  | [] =>
    if known m.id then
      some { me := unseen w.id, maxSize := 2 ^ 64 - 1, state := .action, cm := m, started := true }
    else none
  | a :: rest =>
    if known a then
      match (kid a).E.seek rest m with
      | some c =>
        some { me := unseen w.id, maxSize := 2 ^ 64 - 1, state := .body, cm := unseen a,
               child := .kid a c, started := true }
      | none => none
    else none

/-- State `kFirstReadOfChildId`, webm_parser/src/master_parser.cc:94-124. -/
def MSt.firstId (x : MSt kid × Log) (s : Src) : Pass (MSt kid × Log) :=
  match x.1.idp.feed s with
  | (st, a, s', k) =>
    let m := { x.1 with
      idp := a, total := x.1.total + k
      cm := { x.1.cm with position := s.pos, headerSize := k } }
    if st = .endOfFile ∧ m.me.size = kUnknownElementSize ∧ k = 0 then
      (none, ({ m with state := .ended }, x.2), s', k)
    else if !st.isOk then
      (some st, (if k > 0 then { m with state := .moreId } else m, x.2), s', k)
    else if st.completedOk then (none, ({ m with state := .size }, x.2), s', k)
    else (none, ({ m with state := .moreId }, x.2), s', k)

/-- State `kFinishingReadingChildId`, webm_parser/src/master_parser.cc:126-140. -/
def MSt.moreId (x : MSt kid × Log) (s : Src) : Pass (MSt kid × Log) :=
  match x.1.idp.feed s with
  | (st, a, s', k) =>
    let m := { x.1 with
      idp := a, total := x.1.total + k
      cm := { x.1.cm with headerSize := x.1.cm.headerSize + k } }
    if st.completedOk then (none, ({ m with state := .size }, x.2), s', k)
    else (some st, (m, x.2), s', k)

/-- State `kReadingChildSize`, webm_parser/src/master_parser.cc:142-157. -/
def MSt.readSize (x : MSt kid × Log) (s : Src) : Pass (MSt kid × Log) :=
  match SizeP.feed x.1.szp s with
  | (st, z, s', k) =>
    let m := { x.1 with
      szp := z, total := x.1.total + k
      cm := { x.1.cm with headerSize := x.1.cm.headerSize + k } }
    if st.completedOk then
      (none, ({ m with
        cm := { m.cm with id := m.idp.id, size := SizeP.size z }
        state := .validating }, x.2), s', k)
    else (some st, (m, x.2), s', k)

/-- State `kValidatingChildSize`, webm_parser/src/master_parser.cc:159-199. -/
def MSt.validate (known : Nat → Bool) (m : MSt kid) : Option Status × MSt kid :=
  if m.total + (if m.cm.size = kUnknownElementSize then 0 else m.cm.size) > m.cap then
    (some .elementOverflow, m)
  else if m.me.size = kUnknownElementSize ∧ known m.cm.id = false then
    (none, { m with cached := true, state := .ended })
  else if known m.cm.id = false ∧ m.cm.size = kUnknownElementSize then
    (some .indefiniteUnknownElement, m)
  else (none, { m with state := .action })

/-- State `kInitializingChildParser`, webm_parser/src/master_parser.cc:217-226; which parser is
used is decided in `kValidatingChildSize` and `kGettingAction` (:192-196, :208-213). -/
def MSt.initChild (m : MSt kid) : Option Status × MSt kid :=
  if m.childSkip ∧ m.cm.size ≠ kUnknownElementSize then
    match skipEP.init m.cm (m.maxSize - m.total) with
    | .ok c => (none, { m with child := .skip c, state := .body })
    | .error e => (some e, m)
  else
    match (kid m.cm.id).E.init m.cm (m.maxSize - m.total) with
    | .ok c => (none, { m with child := .kid m.cm.id c, state := .body })
    | .error e => (some e, m)

/-- State `kChildFullyParsed`, webm_parser/src/master_parser.cc:239-262, with
`PrepareForNextChild` (:291-297). -/
def MSt.nextChild (m : MSt kid) : Option Status × MSt kid :=
  if m.total > m.cap then (some .elementOverflow, m)
  else if m.total = m.cap then (none, { m with state := .ended })
  else
    let m' := { m with idp := {}, szp := {}, child := .none, childSkip := false }
    match m.child.cached with
    | some c => (none, { m' with cm := c, state := .validating })
    | none => (none, { m' with state := .firstId })

/-- Make a `…Begin` call; `next` is the state after it. -/
def MSt.callStart (cb : Cb) (quiet : Bool) (v : Val) (next : MState) (x : MSt kid × Log) (s : Src) :
    Pass (MSt kid × Log) :=
  match cb.call quiet x.2 (.start x.1.me v) with
  | (st, sk, L') =>
    if st.completedOk then
      (none, ({ x.1 with skip := sk, started := true, state := next }, L'), s, 0)
    else (some st, ({ x.1 with skip := sk }, L'), s, 0)

/-- Whether the next pass in state `body` is the `OnParseStarted` call of
`ChildParser::Prepare`, webm_parser/src/master_value_parser.h:462-475. -/
def MSt.needStart (w : Wrap) (m : MSt kid) : Bool :=
  w.start == .tagged && !m.started && m.child.starts

/-- One pass of `MasterParser::Feed` (webm_parser/src/master_parser.cc:76-268) inside
`MasterValueParser::Feed` (webm_parser/src/master_value_parser.h:84-127), `SegmentParser::Feed`
(webm_parser/src/segment_parser.cc:51-82) or `BlockGroupParser::Feed`
(webm_parser/src/block_group_parser.h:43-58).  The internal status `kSwitchToSkip`, upon which
`MasterValueParser::Feed` feeds the `MasterParser` again with a `SkipCallback`, is the pass
`needStart` followed by another one with `skip` set.  When a `…Begin` or `OnElementBegin` call
fails, the action it wrote is kept, as in the code. -/
def MSt.body (cb : Cb) (w : Wrap) (known : Nat → Bool) (quiet : Bool) (x : MSt kid × Log) (s : Src) :
    Pass (MSt kid × Log) :=
  match x.1.state with
  | .begin => MSt.callStart cb quiet .nil (if x.1.me.size = 0 then .ended else .firstId) x s
  | .firstId => MSt.firstId x s
  | .moreId => MSt.moreId x s
  | .size => MSt.readSize x s
  | .validating => ((x.1.validate known).1, ((x.1.validate known).2, x.2), s, 0)
  | .action =>
    match cb.call (quiet || x.1.skip || x.1.childSkip) x.2 (.element x.1.cm) with
    | (st, sk, L') =>
      if st.completedOk then (none, ({ x.1 with childSkip := sk, state := .initing }, L'), s, 0)
      else (some st, ({ x.1 with childSkip := sk }, L'), s, 0)
  | .initing => (x.1.initChild.1, (x.1.initChild.2, x.2), s, 0)
  | .body =>
    if x.1.needStart w then
      MSt.callStart cb (quiet || x.1.skip || x.1.childSkip) x.1.value .body x s
    else
      match x.1.child.feed (quiet || x.1.skip || x.1.childSkip) x.2 s with
      | (st, y, s', k) =>
        if st.completedOk then
          (none, ({ x.1 with
            child := y.1, total := x.1.total + k
            value := y.1.consume x.1.skip x.1.value
            state := .childDone }, y.2), s', k)
        else (some st, ({ x.1 with child := y.1, total := x.1.total + k }, y.2), s', k)
  | .childDone => (x.1.nextChild.1, (x.1.nextChild.2, x.2), s, 0)
  | .ended =>
    if w.start = .tagged ∧ x.1.started = false then
      MSt.callStart cb quiet x.1.value .complete x s
    else (none, ({ x.1 with state := .complete }, x.2), s, 0)
  | .complete =>
    if w.complete && !x.1.skip then
      match cb.call quiet x.2 (.complete x.1.me x.1.value) with
      | (st, _, L') => (some st, (x.1, L'), s, 0)
    else (some .okCompleted, x, s, 0)

/-- Phase numbers, only used for the loop measure. -/
def MSt.rank (m : MSt kid) : Nat :=
  match m.state with
  | .begin => 60
  | .body => (if m.child.count > 0 then 40 else 20) + (if m.started then 0 else 1)
  | .childDone => if m.child.cached.isSome then 30 else 18
  | .validating => 26 | .action => 25 | .initing => 24
  | .firstId => 10 | .moreId => 9 | .size => 8
  | .ended => 1 | .complete => 0

/-- Loop measure: bytes left, then phase. -/
def MSt.measure (x : MSt kid × Log) (n : Nat) : Nat := 64 * n + x.1.rank

end

/-- `MasterParser` with its subclasses and wrappers. -/
def masterEP (cb : Cb) (w : Wrap) (known : Nat → Bool) (kid : Nat → Kid) : EP where
  σ := MSt kid
  init m mx := .ok (MSt.init w m mx)
  seek := MSt.seek w known
  feed quiet := loopFeed (MSt.body cb w known quiet) MSt.measure
  cached m := if w.forward && m.cached then some m.cm else none
  skipped m := w.forward && m.skip
  value m := m.value
  size m := m.me.size
  count m := m.total

/-! ### Grammars -/

/-- The parsers without children. -/
inductive Leaf where
  | uint | sint | bool | float | date | str | bin | idElem | virt | block (simple : Bool) | void
  /-- `RecursiveParser` at its depth limit, webm_parser/src/recursive_parser.h:41-44 -/
  | tooDeep
  deriving DecidableEq, Repr

/-- The parser of a leaf. -/
def Leaf.parser (cb : Cb) : Leaf → EP
  | .uint => leafEP (IntP.init 0) (IntP.feed false) (fun p => .nat p.value)
  | .sint => leafEP (IntP.init 0) (IntP.feed true) (fun p => .nat p.value)
  | .bool => leafEP (BoolP.init false) BoolP.feed (fun p => .flag p.value)
  | .float => leafEP FloatP.init FloatP.feed (fun p => .float p.value)
  | .date => leafEP (DateP.init 0) DateP.feed (fun p => .nat p.value)
  | .str => leafEP (ByteP.init []) (ByteP.feed true) (fun p => .bytes p.result)
  | .bin => leafEP (ByteP.init []) (ByteP.feed false) (fun p => .bytes p.result)
  | .idElem => leafEP IdElemP.init IdElemP.feed (fun p => .nat p.value)
  | .virt => leafEP VirtP.init VirtP.feed
      (fun p => .block { track := p.hdr.track, timecode := p.hdr.timecode })
  | .block simple => blockEP cb simple
  | .void => voidEP cb
  | .tooDeep => leafEP (fun _ => .error .exceededRecursionDepthLimit) skipFeed (fun _ => .nil)

/-- `Id::kVoid`, webm_parser/include/webm/id.h. -/
def kVoid : Nat := 0xEC

mutual
/-- A tree of parsers. -/
inductive Gram where
  | leaf (l : Leaf)
  | master (w : Wrap) (ks : Kids)
/-- The children of a master parser. -/
inductive Kids where
  | nil
  | cons (id : Nat) (start consume : Bool) (g : Gram) (rest : Kids)
end

/-- Whether an ID is in `parsers_`; `kVoid` always is
(webm_parser/src/master_parser.h:71-74). -/
def Kids.has : Kids → Nat → Bool
  | .nil, id => id == kVoid
  | .cons i _ _ _ rest, id => id == i || rest.has id

mutual
/-- The parser of a tree. -/
def Gram.parser (cb : Cb) : Gram → EP
  | .leaf l => l.parser cb
  | .master w ks => masterEP cb w ks.has (ks.find cb)
/-- `parsers_.find`, or the parser for unknown elements. -/
def Kids.find (cb : Cb) : Kids → Nat → Kid
  | .nil, id => ⟨if id = kVoid then voidEP cb else unknownEP cb, false, false⟩
  | .cons i st co g rest, id => if id = i then ⟨g.parser cb, st, co⟩ else rest.find cb id
end

end Verif.Web

/-
The memory of the content encodings of a track in mkvparser: what parsing allocates, and what the destructors delete.

Simplification: the elements are given as a list of what the reader finds (`bad` is an element whose header cannot be parsed or that goes
past the end), instead of as bytes; `ParserTracks` has the parsing of the bytes.  The heap is that of `MuxerBuild`.
-/
import Verif.Model.MuxerBuild

namespace Verif.Par.Enc
open Verif Verif.Mux.Build

/-- The children of a `ContentCompression` element. -/
inductive CompPart where
  /-- `ContentCompAlgo`; a negative number is refused. -/
  | algo (ok : Bool)
  /-- `ContentCompSettings` with its size, and whether reading succeeds. -/
  | settings (size : Nat) (read : Bool)
  | other
  | bad
  deriving DecidableEq

/-- The children of a `ContentEncryption` element. -/
inductive EncrPart where
  /-- `ContentEncAlgo`; anything but 5 is refused. -/
  | algo (ok : Bool)
  /-- `ContentEncKeyID`, `ContentSignature`, `ContentSigKeyID`, with their sizes and whether reading succeeds. -/
  | keyId (size : Nat) (read : Bool)
  | signature (size : Nat) (read : Bool)
  | sigKeyId (size : Nat) (read : Bool)
  /-- `ContentEncAESSettings`, and whether it is parsed. -/
  | aes (ok : Bool)
  | other
  | bad
  deriving DecidableEq

/-- The children of a `ContentEncoding` element. -/
inductive EncPart where
  /-- `ContentEncodingScope`; a number below 1 is refused. -/
  | scope (ok : Bool)
  | compression (ps : List CompPart)
  | encryption (ps : List EncrPart)
  | other
  | bad

/-- The children of a `ContentEncodings` element. -/
inductive EncsPart where
  | encoding (ps : List EncPart)
  | other
  | bad

/-- `ContentEncoding::ParseCompressionEntry`, mkvparser/mkvparser.cc:4311-4370: whether it returns 0, and `settings` afterwards.  When reading
fails it returns the status of parsing the header, which is 0. -/
def parseComp (can : Nat → Bool) : List CompPart → Bool → Option Nat → Mem → Res (Bool × Option Nat × Mem)
  | [], valid, s, m => .ok (valid, s, m)
  | .algo ok :: ps, _, s, m => if ok then parseComp can ps true s m else .ok (false, s, m)
  | .settings size read :: ps, valid, s, m =>
    if size = 0 then .ok (false, s, m)
    else
      match m.alloc can with
      | (none, m) => .ok (false, s, m)
      | (some b, m) =>
        if !read then do
          let m ← m.free (some b)
          .ok (true, s, m)
        else if s ≠ none then do
          let m ← m.free (some b)
          .ok (false, s, m)
        else parseComp can ps valid (some b) m
  | .other :: ps, valid, s, m => parseComp can ps valid s m
  | .bad :: _, _, s, m => .ok (false, s, m)

/-- `ContentEncryption`, mkvparser/mkvparser.h:214-229: the data it owns. -/
structure Encr where
  keyId : Option Nat := none
  signature : Option Nat := none
  sigKeyId : Option Nat := none

/-- Reading data into a new buffer, mkvparser/mkvparser.cc:4391-4412, 4414-4435, 4437-4456: the old buffer is deleted first.  The answer is
what is returned, if anything is. -/
def newData (can : Nat → Bool) (size : Nat) (read : Bool) (old : Option Nat) (m : Mem) : Res (Option Bool × Option Nat × Mem) := do
  let m ← m.free old
  if size = 0 then .ok (some false, none, m)
  else
    match m.alloc can with
    | (none, m) => .ok (some false, none, m)
    | (some b, m) =>
      if !read then do
        let m ← m.free (some b)
        .ok (some true, none, m)
      else .ok (none, some b, m)

/-- `ContentEncoding::ParseEncryptionEntry`, mkvparser/mkvparser.cc:4372-4474. -/
def parseEncr (can : Nat → Bool) : List EncrPart → Encr → Mem → Res (Bool × Encr × Mem)
  | [], e, m => .ok (true, e, m)
  | .algo ok :: ps, e, m => if ok then parseEncr can ps e m else .ok (false, e, m)
  | .keyId size read :: ps, e, m => do
    let (r, b, m) ← newData can size read e.keyId m
    match r with
    | some ok => .ok (ok, { e with keyId := b }, m)
    | none => parseEncr can ps { e with keyId := b } m
  | .signature size read :: ps, e, m => do
    let (r, b, m) ← newData can size read e.signature m
    match r with
    | some ok => .ok (ok, { e with signature := b }, m)
    | none => parseEncr can ps { e with signature := b } m
  | .sigKeyId size read :: ps, e, m => do
    let (r, b, m) ← newData can size read e.sigKeyId m
    match r with
    | some ok => .ok (ok, { e with sigKeyId := b }, m)
    | none => parseEncr can ps { e with sigKeyId := b } m
  | .aes ok :: ps, e, m => if ok then parseEncr can ps e m else .ok (false, e, m)
  | .other :: ps, e, m => parseEncr can ps e m
  | .bad :: _, e, m => .ok (false, e, m)

/-- `ContentCompression::~ContentCompression`, mkvparser/mkvparser.cc:4085-4087. -/
def destroyComp (s : Option Nat) (m : Mem) : Res Mem := m.free s

/-- `ContentEncryption::~ContentEncryption`, mkvparser/mkvparser.cc:4100-4104. -/
def destroyEncr (e : Encr) (m : Mem) : Res Mem := do
  let m ← m.free e.keyId
  let m ← m.free e.signature
  m.free e.sigKeyId

/-- An array of pointers with its end: `compression_entries_` and `compression_entries_end_`, `encryption_entries_` and
`encryption_entries_end_`, mkvparser/mkvparser.h:282-287, `content_encoding_entries_` and `content_encoding_entries_end_`.  `ended` says that
the end is not null; it is then behind the items. -/
structure Ptrs (α : Type) where
  addr : Option Nat := none
  ended : Bool := false
  room : Nat := 0
  items : List (Nat × α) := []

/-- `*end++ = p`; undefined outside the array. -/
def Ptrs.push {α : Type} (x : Ptrs α) (a : Nat) (v : α) : Res (Ptrs α) :=
  if x.addr = none ∨ x.room ≤ x.items.length then .ub else .ok { x with items := x.items ++ [(a, v)] }

/-- `delete` of each of the items. -/
def deleteItems {α : Type} (destroy : α → Mem → Res Mem) : List (Nat × α) → Mem → Res Mem
  | [], m => .ok m
  | (a, x) :: xs, m => do
    let m ← destroy x m
    let m ← m.free (some a)
    deleteItems destroy xs m

/-- The loop from the array to its end that deletes the items, and deleting the array, mkvparser/mkvparser.cc:4116-4124, 4126-4134,
4487-4495.  From a null pointer to an end that is not null it uses the null pointer. -/
def Ptrs.delete {α : Type} (destroy : α → Mem → Res Mem) (x : Ptrs α) (m : Mem) : Res Mem :=
  if x.addr = none ∧ x.ended = true then .ub
  else do
    let m ← deleteItems destroy x.items m
    m.free x.addr

/-- `ContentEncoding`: its arrays. -/
structure Encoding where
  comps : Ptrs (Option Nat) := {}
  encrs : Ptrs Encr := {}

/-- `ContentEncoding::~ContentEncoding`, mkvparser/mkvparser.cc:4115-4135. -/
def Encoding.destroy (e : Encoding) (m : Mem) : Res Mem := do
  let m ← e.comps.delete destroyComp m
  e.encrs.delete destroyEncr m

/-- The second loop of `ContentEncoding::ParseContentEncodingEntry`, mkvparser/mkvparser.cc:4259-4308. -/
def parseParts (can : Nat → Bool) : List EncPart → Encoding → Mem → Res (Bool × Encoding × Mem)
  | [], e, m => .ok (true, e, m)
  | .scope ok :: ps, e, m => if ok then parseParts can ps e m else .ok (false, e, m)
  | .compression cs :: ps, e, m =>
    match m.alloc can with
    | (none, m) => .ok (false, e, m)
    | (some a, m) => do
      let (ok, s, m) ← parseComp can cs false none m
      if !ok then do
        let m ← destroyComp s m
        let m ← m.free (some a)
        .ok (false, e, m)
      else do
        let x ← e.comps.push a s
        parseParts can ps { e with comps := x } m
  | .encryption cs :: ps, e, m =>
    match m.alloc can with
    | (none, m) => .ok (false, e, m)
    | (some a, m) => do
      let (ok, s, m) ← parseEncr can cs {} m
      if !ok then do
        let m ← destroyEncr s m
        let m ← m.free (some a)
        .ok (false, e, m)
      else do
        let x ← e.encrs.push a s
        parseParts can ps { e with encrs := x } m
  | .other :: ps, e, m => parseParts can ps e m
  | .bad :: _, e, m => .ok (false, e, m)

def EncPart.isComp : EncPart → Bool
  | .compression _ => true
  | _ => false

def EncPart.isEncr : EncPart → Bool
  | .encryption _ => true
  | _ => false

def EncPart.isBad : EncPart → Bool
  | .bad => true
  | _ => false

/-- An array for `n` pointers with its end, if any are needed; `none` if there is no memory, mkvparser/mkvparser.cc:4239-4245, 4247-4256. -/
def newPtrs {α : Type} (can : Nat → Bool) (n : Nat) (m : Mem) : Option (Ptrs α) × Mem :=
  if n = 0 then (some {}, m)
  else
    match m.alloc can with
    | (none, m) => (none, m)
    | (some a, m) => (some { addr := some a, ended := true, room := n }, m)

/-- `ContentEncoding::ParseContentEncodingEntry`, mkvparser/mkvparser.cc:4202-4309, on a new object.  (There are fewer than 2³¹ elements.) -/
def parseEncoding (can : Nat → Bool) (ps : List EncPart) (m : Mem) : Res (Bool × Encoding × Mem) :=
  if ps.any EncPart.isBad then .ok (false, {}, m)
  else if ps.countP EncPart.isComp = 0 ∧ ps.countP EncPart.isEncr = 0 then .ok (false, {}, m)
  else
    match newPtrs can (ps.countP EncPart.isComp) m with
    | (none, m) => .ok (false, {}, m)
    | (some comps, m) =>
      match newPtrs can (ps.countP EncPart.isEncr) m with
      | (none, m) => do
        let m ← m.free comps.addr
        .ok (false, { comps := { comps with addr := none } }, m)
      | (some encrs, m) => parseParts can ps { comps := comps, encrs := encrs } m

/-- The second loop of `Track::ParseContentEncodingsEntry`, mkvparser/mkvparser.cc:4970-4998. -/
def parseEach (can : Nat → Bool) : List EncsPart → Ptrs Encoding → Mem → Res (Bool × Ptrs Encoding × Mem)
  | [], x, m => .ok (true, x, m)
  | .encoding ps :: es, x, m =>
    match m.alloc can with
    | (none, m) => .ok (false, x, m)
    | (some a, m) => do
      let (ok, e, m) ← parseEncoding can ps m
      if !ok then do
        let m ← e.destroy m
        let m ← m.free (some a)
        .ok (false, x, m)
      else do
        let x ← x.push a e
        parseEach can es x m
  | .other :: es, x, m => parseEach can es x m
  | .bad :: _, x, m => .ok (false, x, m)

def EncsPart.isEncoding : EncsPart → Bool
  | .encoding _ => true
  | _ => false

def EncsPart.isBad : EncsPart → Bool
  | .bad => true
  | _ => false

/-- `Track::ParseContentEncodingsEntry`, mkvparser/mkvparser.cc:4933-5002: whether it returns 0, and the array of the track. -/
def parseEncodings (can : Nat → Bool) (es : List EncsPart) (m : Mem) : Res (Bool × Ptrs Encoding × Mem) :=
  if es.any EncsPart.isBad then .ok (false, {}, m)
  else if es.countP EncsPart.isEncoding = 0 then .ok (false, {}, m)
  else
    match newPtrs can (es.countP EncsPart.isEncoding) m with
    | (none, m) => .ok (false, {}, m)
    | (some x, m) => parseEach can es x m

/-- Parsing the content encodings of a track, and destroying the track (the part of `Track::~Track`, mkvparser/mkvparser.cc:4487-4495, that
has to do with them): how many there were, and the memory left. -/
def openAndClose (can : Nat → Bool) (es : List EncsPart) : Res (Nat × Mem) := do
  let (_, x, m) ← parseEncodings can es {}
  let m ← x.delete Encoding.destroy m
  .ok (x.items.length, m)

end Verif.Par.Enc

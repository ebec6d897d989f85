/-
Building chapters and tags: the arrays of `Chapters`, `Chapter`, `Tags` and `Tag` that grow by copying, the strings they own, and
their destruction.

`Chapters` and `Tags`, and `Chapter` and `Tag`, do this with the same code; one model stands for both.  Simplification: the memory of
the model only knows which allocations are live; what is in them is kept with the pointers to them.  That is right as long as no two
pointers lead to the same allocation, except while an array is copied into a longer one, after which the old one is deleted.
-/
import Verif.Model.MuxerHeaders

namespace Verif.Mux.Build
open Verif

/-- The heap: the addresses that are allocated, and the next new address. -/
structure Mem where
  live : List Nat := []
  next : Nat := 0
  deriving DecidableEq

/-- `new (std::nothrow)`; `can n` says whether allocation number `n` succeeds. -/
def Mem.alloc (can : Nat → Bool) (m : Mem) : Option Nat × Mem :=
  if can m.next then (some m.next, { live := m.next :: m.live, next := m.next + 1 }) else (none, { m with next := m.next + 1 })

/-- `delete[]`: nothing happens for a null pointer; anything else must be allocated. -/
def Mem.free (p : Option Nat) (m : Mem) : Res Mem :=
  match p with
  | none => .ok m
  | some a => if a ∈ m.live then .ok { m with live := m.live.erase a } else .ub

/-- A `char*`: the address, and the text. -/
abbrev Str := Option (Nat × Bytes)

/-- `StrCpy`, mkvmuxer/mkvmuxer.cc:50-71: the answer, and `*dst_ptr` afterwards. -/
def strCpy (can : Nat → Bool) (src : Option Bytes) (dst : Str) (m : Mem) : Res (Bool × Str × Mem) := do
  let m ← m.free (dst.map (·.1))
  match src with
  | none => .ok (true, none, m)
  | some b =>
    match m.alloc can with
    | (none, m) => .ok (false, none, m)
    | (some a, m) => .ok (true, some (a, b), m)

/-- An array with room to grow: `chapters_`, `chapters_size_` and `chapters_count_` (mkvmuxer/mkvmuxer.h:1076-1083), `displays_`,
`displays_size_` and `displays_count_` (mkvmuxer/mkvmuxer.h:1040-1047), and those of `Tags` and `Tag`.  `items` are the objects in use. -/
structure Arr (α : Type) where
  addr : Option Nat := none
  size : Nat := 0
  items : List α := []

/-- `Chapters::ExpandChaptersArray`, `Chapter::ExpandDisplaysArray`, `Tag::ExpandSimpleTagsArray` and `Tags::ExpandTagsArray`,
mkvmuxer/mkvmuxer.cc:2157-2179, 1962-1982, 2261-2281, 2425-2447. -/
def Arr.expand {α : Type} (can : Nat → Bool) (x : Arr α) (m : Mem) : Res (Bool × Arr α × Mem) :=
  if x.size > x.items.length then .ok (true, x, m)
  else
    let size := if x.size = 0 then 1 else 2 * x.size
    if size ≥ 2 ^ 31 then .ub
    else
      match m.alloc can with
      | (none, m) => .ok (false, x, m)
      | (some a, m) => do
        let m ← m.free x.addr
        .ok (true, { x with addr := some a, size := size }, m)

/-- `array[count++] = v`, as at mkvmuxer/mkvmuxer.cc:1899-1900, 2129-2130, 2223-2224, 2388; undefined outside the array. -/
def Arr.push {α : Type} (x : Arr α) (v : α) : Res (Arr α) :=
  if x.addr = none ∨ x.size ≤ x.items.length then .ub else .ok { x with items := x.items ++ [v] }

/-- What a chapter or a tag has: `Chapter`, mkvmuxer/mkvmuxer.h:1024-1047 (`parts` are the displays, each with title, language and
country), or `Tag`, mkvmuxer/mkvmuxer.h:1147-1156 (`parts` are the simple tags, each with name and text; the other members are not
used). -/
structure Obj where
  id : Str := none
  start : UInt64 := 0
  stop : UInt64 := 0
  uid : UInt64 := 0
  parts : Arr (List Str) := {}

/-- `set_title`, `set_language`, `set_country` on a new display, or `set_tag_name`, `set_tag_string` on a new simple tag, up to the first
that fails, mkvmuxer/mkvmuxer.cc:1902-1909, 2226-2230. -/
def fill (can : Nat → Bool) : List (Option Bytes) → Mem → Res (Bool × List Str × Mem)
  | [], m => .ok (true, [], m)
  | a :: as, m => do
    let (b, s, m) ← strCpy can a none m
    if b then do
      let (b, ss, m) ← fill can as m
      .ok (b, s :: ss, m)
    else .ok (false, s :: as.map fun _ => none, m)

/-- `Chapter::add_string` and `Tag::add_simple_tag`, mkvmuxer/mkvmuxer.cc:1894-1912, 2219-2233. -/
def Obj.addPart (can : Nat → Bool) (args : List (Option Bytes)) (o : Obj) (m : Mem) : Res (Bool × Obj × Mem) := do
  let (b, ps, m) ← o.parts.expand can m
  if b then do
    let (b, strs, m) ← fill can args m
    let ps ← ps.push strs
    .ok (b, { o with parts := ps }, m)
  else .ok (false, { o with parts := ps }, m)

/-- `Display::Clear` and `SimpleTag::Clear`, mkvmuxer/mkvmuxer.cc:2046-2050, 2324-2327. -/
def clearPart : List Str → Mem → Res Mem
  | [], m => .ok m
  | s :: ss, m => do
    let m ← m.free (s.map (·.1))
    clearPart ss m

/-- A loop that clears objects. -/
def clearAll {α : Type} (clear : α → Mem → Res Mem) : List α → Mem → Res Mem
  | [], m => .ok m
  | v :: vs, m => do
    let m ← clear v m
    clearAll clear vs m

/-- The objects from the last to the first, then the array: `Chapter::Clear` (without its first line), `Tag::Clear`,
`Chapters::~Chapters`, `Tags::~Tags`, mkvmuxer/mkvmuxer.cc:1951-1959, 2248-2259, 2113-2121, 2372-2380. -/
def Arr.clear {α : Type} (clear : α → Mem → Res Mem) (x : Arr α) (m : Mem) : Res Mem := do
  let m ← clearAll clear x.items.reverse m
  m.free x.addr

/-- `Chapter::Clear`, mkvmuxer/mkvmuxer.cc:1948-1960; `Tag::Clear`, mkvmuxer/mkvmuxer.cc:2248-2259 (a tag has no `id_`). -/
def Obj.clear (o : Obj) (m : Mem) : Res Mem := do
  let m ← m.free (o.id.map (·.1))
  o.parts.clear clearPart m

/-- A pointer to an object in an array, as `AddChapter` and `AddTag` return it. -/
structure Handle where
  block : Nat
  index : Nat
  deriving DecidableEq

/-- Using such a pointer: if the array has been copied into a longer one since, the pointer leads to memory that was deleted. -/
def Arr.at {α : Type} (x : Arr α) (h : Handle) : Res α :=
  if x.addr = some h.block then
    match x.items[h.index]? with
    | some v => .ok v
    | none => .ub
  else .ub

/-- The calls: `AddChapter` or `AddTag` (with the UID made for a chapter), and on what it returned last `set_id`, `set_time` (with the time
scale of the segment), `set_uid`, `add_string` and `add_simple_tag`. -/
inductive Call where
  | add (uid : UInt64)
  | setId (s : Option Bytes)
  | setTime (scale start stop : UInt64)
  | setUid (uid : UInt64)
  | addString (title language country : Option Bytes)
  | addSimpleTag (name string : Option Bytes)
  deriving DecidableEq

/-- A call on an object: `Chapter::set_id`, `Chapter::set_time`, `Chapter::set_uid`, `Chapter::add_string` and `Tag::add_simple_tag`,
mkvmuxer/mkvmuxer.cc:1884-1912, 2219-2233, mkvmuxer/mkvmuxer.h:943. -/
def Call.on (can : Nat → Bool) : Call → Obj → Mem → Res (Bool × Obj × Mem)
  | .add _, o, m => .ok (true, o, m)
  | .setId s, o, m => do
    let (b, id, m) ← strCpy can s o.id m
    .ok (b, { o with id := id }, m)
  | .setTime scale start stop, o, m =>
    if scale = 0 then .ub else .ok (true, { o with start := start / scale, stop := stop / scale }, m)
  | .setUid uid, o, m => .ok (true, { o with uid := uid }, m)
  | .addString t l c, o, m => o.addPart can [t, l, c] m
  | .addSimpleTag n s, o, m => o.addPart can [n, s] m

/-- The array, the heap, and what `AddChapter` or `AddTag` returned last when it did not return NULL. -/
structure St where
  mem : Mem := {}
  arr : Arr Obj := {}
  last : Option Handle := none

/-- A call that is not `add`, on the object `h` leads to. -/
def St.use (can : Nat → Bool) (c : Call) (h : Handle) (x : St) : Res (Bool × St) := do
  let o ← x.arr.at h
  let (b, o, m) ← c.on can o x.mem
  .ok (b, { x with arr := { x.arr with items := x.arr.items.set h.index o }, mem := m })

/-- `Chapters::AddChapter` and `Tags::AddTag`, mkvmuxer/mkvmuxer.cc:2125-2133, 2384-2391, with `Chapter::Init` and `Tag::Tag`,
mkvmuxer/mkvmuxer.cc:1928-1936, 2235-2239. -/
def St.add (can : Nat → Bool) (uid : UInt64) (x : St) : Res (Bool × St) := do
  let (b, arr, m) ← x.arr.expand can x.mem
  if b then do
    let arr' ← arr.push { uid := uid }
    .ok (true, { mem := m, arr := arr', last := arr.addr.map fun a => ⟨a, arr.items.length⟩ })
  else .ok (false, { x with mem := m, arr := arr })

/-- One call.  When there is no object yet, there is nothing to call. -/
def St.step (can : Nat → Bool) (c : Call) (x : St) : Res (Bool × St) :=
  match c, x.last with
  | .add uid, _ => x.add can uid
  | _, none => .ok (false, x)
  | c, some h => x.use can c h

/-- A series of calls, and their answers. -/
def St.run (can : Nat → Bool) : List Call → St → Res (List Bool × St)
  | [], x => .ok ([], x)
  | c :: cs, x => do
    let (b, x) ← x.step can c
    let (bs, x) ← St.run can cs x
    .ok (b :: bs, x)

/-- `Chapters::~Chapters` and `Tags::~Tags`, mkvmuxer/mkvmuxer.cc:2113-2121, 2372-2380. -/
def St.destroy (x : St) : Res Mem := x.arr.clear Obj.clear x.mem

/-- What `Chapter::Display::WriteDisplay` finds in a display. -/
def asDisplay (ss : List Str) : Display :=
  { title := (ss[0]?.getD none).map (·.2), language := (ss[1]?.getD none).map (·.2), country := (ss[2]?.getD none).map (·.2) }

/-- What `Tag::SimpleTag::Write` finds in a simple tag. -/
def asSimpleTag (ss : List Str) : SimpleTag :=
  { name := (ss[0]?.getD none).map (·.2), string := (ss[1]?.getD none).map (·.2) }

/-- The chapters that `Chapters::Write` finds. -/
def St.chapters (x : St) : List Chapter :=
  x.arr.items.map fun o =>
    { id := o.id.map (·.2), start := o.start, stop := o.stop, uid := o.uid, displays := o.parts.items.map asDisplay }

/-- The tags that `Tags::Write` finds. -/
def St.tags (x : St) : List Tag := x.arr.items.map fun o => o.parts.items.map asSimpleTag

end Verif.Mux.Build

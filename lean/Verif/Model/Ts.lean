/-
The transport stream packetiser, transcribed from `m2ts/vpxpes2ts.cc`.
-/
import Verif.Base.Res
import Verif.Base.Bytes

namespace Verif.Ts

/-- `TsHeader::Write` (m2ts/vpxpes2ts.cc:111-128) with the field values and shifts of
m2ts/vpxpes2ts.cc:68-108; each `*byte |=` truncates to eight bits. -/
def tsHeader (payloadStart adaptation : Bool) (counter : Nat) : Bytes :=
  let b1 := (((0 ||| (0 <<< 7)) ||| ((if payloadStart then 1 else 0) <<< 6)) ||| (0 <<< 5))
  let b2 := 0x20 &&& 0xff
  let b3 := ((((0 ||| (0 <<< 6)) ||| ((if adaptation then 1 else 0) <<< 5)) ||| (1 <<< 4)) |||
    counter)
  [0x47, UInt8.ofNat b1, UInt8.ofNat b2, UInt8.ofNat b3]

/-- One turn of the loop of `ReceivePacket` (m2ts/vpxpes2ts.cc:153-207): the packet written
into `ts_buffer_` and the number of PES bytes it carries.  Simplified: `ts_buffer_` is only
`reserve`d, so the code writes past the `size()` of a vector (formally undefined, in practice
the reserved storage); here it is a 188 byte buffer, all of which is rewritten by each turn
(the code checks `write_pos == 188`). -/
def tsPacket (total left counter : Nat) (rest : Bytes) : Bytes × Nat :=
  let payload := min left 184
  let hdr := tsHeader (left = total) (payload ≠ 184) counter
  if payload < 184 then
    let payload := if payload = 184 - 1 then payload - 1 else payload
    let pad := 184 - payload - 1 - 1
    (hdr ++ [UInt8.ofNat (pad + 1), 0] ++ List.replicate pad 0xff ++ rest.take payload, payload)
  else (hdr ++ rest.take payload, payload)

/-- The loop of `ReceivePacket` (m2ts/vpxpes2ts.cc:151-213).  `left` is `bytes_to_packetize`,
`rest` the PES bytes from `read_pos` on, `writes k` says whether the `k`-th `fwrite` of this
call succeeds.  `fuel` bounds the turns: each one consumes at least one byte.  The result is
the returned flag and the packets that reached the file. -/
def receiveLoop (writes : Nat → Bool) (total : Nat) : Nat → Nat → Nat → Nat → Bytes →
    Bool × List Bytes
  | 0, _, _, _, _ => (false, [])
  | fuel + 1, k, left, counter, rest =>
    if left = 0 then (true, [])
    else
      let counter := if counter > 0xf then 0 else counter
      let (pkt, n) := tsPacket total left counter rest
      if pkt.length ≠ 188 then (false, [])
      else if writes k then
        let (r, out) := receiveLoop writes total fuel (k + 1) (left - n) ((counter + 1) % 256)
          (rest.drop n)
        (r, pkt :: out)
      else (false, [])

/-- `VpxPes2Ts::ReceivePacket` (m2ts/vpxpes2ts.cc:145-216).  `bytes_to_packetize` is an `int`:
with `2^31` bytes or more (and below `2^32`) it starts negative and nothing is written. -/
def receivePacket (writes : Nat → Bool) (pes : Bytes) : Bool × List Bytes :=
  let n := toI32 pes.length
  if n ≤ 0 then (true, []) else receiveLoop writes n.toNat (n.toNat + 1) 0 n.toNat 0 pes

end Verif.Ts

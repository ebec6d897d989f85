/-
Reading back a PES packet: lemmas for the stream round trip.
-/
import Verif.Lemmas.Pes

namespace Verif.Pes
open Verif.Spec

theorem escapeLoop_ne {b : UInt8} {z : Nat} {bs : Bytes} (hb : b ≠ 0) (hz : z < 2) :
    escapeLoop z (b :: bs) = b :: escapeLoop 0 bs := by
  rw [escapeLoop, if_neg hb, if_neg (by omega)]

theorem escapeLoop_pair {b c : UInt8} {bs : Bytes} (hc : c ≠ 0) :
    escapeLoop 0 (b :: c :: bs) = b :: c :: escapeLoop 0 bs := by
  by_cases hb : b = 0
  · rw [escapeLoop, if_pos hb, escapeLoop_ne hc (by omega)]
  · rw [escapeLoop_ne hb (by omega), escapeLoop_ne hc (by omega)]

theorem shortRuns_ne {b : UInt8} {z : Nat} {bs : Bytes} (hb : b ≠ 0) (hz : z < 3) :
    shortRuns z (b :: bs) = shortRuns 0 bs := by
  rw [shortRuns, if_neg hb, if_neg (by omega)]

theorem shortRuns_pair {b c : UInt8} {bs : Bytes} (hc : c ≠ 0) :
    shortRuns 0 (b :: c :: bs) = shortRuns 0 bs := by
  by_cases hb : b = 0
  · rw [shortRuns, if_pos hb, shortRuns_ne hc (by omega)]
  · rw [shortRuns_ne hb (by omega), shortRuns_ne hc (by omega)]

theorem ofNat_ne_zero {n : Nat} (h0 : 0 < n) (h : n < 256) : UInt8.ofNat n ≠ 0 := by
  intro e
  have := congrArg UInt8.toNat e
  simp at this
  omega

/-- A PTS is made of its three fields. -/
theorem pts_fields (pts : Nat) (h : pts < 2 ^ 33) :
    ∃ a b c, a < 8 ∧ b < 2 ^ 15 ∧ c < 2 ^ 15 ∧ pts = a * 2 ^ 30 + b * 2 ^ 15 + c ∧
      a = pts / 2 ^ 30 ∧ b = pts / 2 ^ 15 % 2 ^ 15 ∧ c = pts % 2 ^ 15 :=
  ⟨pts / 2 ^ 30, pts / 2 ^ 15 % 2 ^ 15, pts % 2 ^ 15, by omega, by omega, by omega, by omega,
    rfl, rfl, rfl⟩

/-- The optional header with a PTS is not changed by escaping and has no long run. -/
theorem optional_true (pts : Nat) (h : pts < 2 ^ 33) :
    escapeLoop 0 (optionalHeader true pts) = optionalHeader true pts ∧
    shortRuns 0 (optionalHeader true pts) = true ∧ (optionalHeader true pts).length = 9 := by
  obtain ⟨a, b, c, ha, hb, hc, rfl, -, -, -⟩ := pts_fields pts h
  unfold optionalHeader
  rw [ptsBytes_eq a b c ha hb hc]
  have h0 : UInt8.ofNat (0x20 + 2 * a + 1) ≠ 0 := ofNat_ne_zero (by omega) (by omega)
  have h2 : UInt8.ofNat (2 * (b % 128) + 1) ≠ 0 := ofNat_ne_zero (by omega) (by omega)
  have h4 : UInt8.ofNat (2 * (c % 128) + 1) ≠ 0 := ofNat_ne_zero (by omega) (by omega)
  refine ⟨?_, ?_, rfl⟩
  · simp only [if_true, List.cons_append, List.nil_append]
    rw [escapeLoop_ne (by decide) (by omega), escapeLoop_ne (by decide) (by omega),
      escapeLoop_ne (by decide) (by omega), escapeLoop_ne h0 (by omega), escapeLoop_pair h2,
      escapeLoop_pair h4, escapeLoop_ne (by decide) (by omega)]
    rfl
  · simp only [if_true, List.cons_append, List.nil_append]
    rw [shortRuns_ne (by decide) (by omega), shortRuns_ne (by decide) (by omega),
      shortRuns_ne (by decide) (by omega), shortRuns_ne h0 (by omega), shortRuns_pair h2,
      shortRuns_pair h4, shortRuns_ne (by decide) (by omega)]
    rfl

/-- The PTS the reader gets back. -/
def readBack (pts : Nat) : Nat :=
  toU64 (toI32 (((pts / 2 ^ 30 % 4) * 2 ^ 30 + pts / 2 ^ 15 % 2 ^ 15 * 2 ^ 15 +
    ((pts % 2 ^ 15 / 128 ||| pts / 2 ^ 15 % 2 ^ 15 / 128) * 128 + pts % 128) : Nat) : Int))

theorem readOptional_true (pts : Nat) (h : pts < 2 ^ 33) (hd : Header) :
    readOptional hd (optionalHeader true pts) =
      .ok { hd with hasPts := 1, hasDts := 0, pts := readBack pts } := by
  obtain ⟨a, b, c, ha, hb, hc, e, ea, eb, ec⟩ := pts_fields pts h
  have hm : c / 128 ||| b / 128 < 256 := by
    have : c / 128 ||| b / 128 < 2 ^ 8 := Nat.or_lt_two_pow (by omega) (by omega)
    omega
  have hr := readPts_eq a b c _ ha hb hm
  have e2 : pts % 128 = c % 128 := by omega
  unfold readBack
  rw [← ea, ← eb, ← ec, e2, ← hr]
  rw [e]
  unfold optionalHeader
  rw [ptsBytes_eq a b c ha hb hc]
  have t : ∀ x, (UInt8.ofNat (2 * x + 1)).toNat &&& 1 = 1 := by
    intro x
    rw [Nat.and_one_is_mod]
    simp
  simp only [if_true, List.cons_append, List.nil_append, readOptional]
  rw [if_neg (by decide), if_pos (by decide), if_neg, if_neg (by decide)]
  · rfl
  · have t0 := t (16 + a)
    rw [show 2 * (16 + a) + 1 = 0x20 + 2 * a + 1 by omega] at t0
    rintro (h1 | h1 | h1)
    · exact h1 t0
    · exact h1 (t _)
    · exact h1 (t _)

/-- The BCMV fields before the payload. -/
theorem bcmv_short (t : Nat) (h : t < 2 ^ 32) (h1 : t ≠ 1) (h3 : t ≠ 3) :
    shortRuns 0 ([0x42, 0x43, 0x4D, 0x56] ++ (beBytes 4 t ++ [0, 0])) = true := by
  rw [shortRuns_iff]
  intro hl
  have hval : ∀ i : Nat, (UInt8.ofNat i).toNat = i % 256 := fun i => by simp
  simp only [beBytes, List.cons_append, List.nil_append] at hl
  generalize e0 : UInt8.ofNat (t / 256 ^ 3) = x0 at hl
  generalize e1 : UInt8.ofNat (t / 256 ^ 2) = x1 at hl
  generalize e2 : UInt8.ofNat (t / 256 ^ 1) = x2 at hl
  generalize e3 : UInt8.ofNat (t / 256 ^ 0) = x3 at hl
  have key : (x0 = 0 ∧ x1 = 0 ∧ x2 = 0 ∧ (x3 = 1 ∨ x3 = 3)) := by
    unfold LongRun at hl
    simp only [List.infix_cons_iff, List.cons_prefix_cons, List.infix_nil, List.prefix_nil,
      reduceCtorEq, and_false, or_false] at hl
    simp at hl
    rcases hl with hl | hl
    · exact ⟨hl.1.symm, hl.2.1.symm, hl.2.2.1.symm, Or.inl hl.2.2.2.symm⟩
    · exact ⟨hl.1.symm, hl.2.1.symm, hl.2.2.1.symm, Or.inr hl.2.2.2.symm⟩
  obtain ⟨k0, k1, k2, k3⟩ := key
  subst e0 e1 e2 e3
  have z : ∀ i, UInt8.ofNat i = 0 → i % 256 = 0 := fun i hi => by
    have := congrArg UInt8.toNat hi; simpa using this
  have g0 := z _ k0
  have g1 := z _ k1
  have g2 := z _ k2
  have g3 : t / 256 ^ 0 % 256 = 1 ∨ t / 256 ^ 0 % 256 = 3 := by
    rcases k3 with k3 | k3
    · left; have := congrArg UInt8.toNat k3; simpa using this
    · right; have := congrArg UInt8.toNat k3; simpa using this
  simp only [show 256 ^ 3 = 16777216 by rfl, show 256 ^ 2 = 65536 by rfl, show 256 ^ 1 = 256 by rfl,
    show 256 ^ 0 = 1 by rfl] at *
  omega

theorem or_chain (l0 l1 l2 l3 : UInt8) :
    (((l0.toNat <<< 24) ||| (l1.toNat <<< 16)) ||| (l2.toNat <<< 8)) ||| l3.toNat =
      beVal [l0, l1, l2, l3] := by
  have h1 : (l0.toNat <<< 24) ||| (l1.toNat <<< 16) = (l0.toNat * 256 + l1.toNat) <<< 16 := by
    rw [show (24 : Nat) = 8 + 16 by rfl, Nat.shiftLeft_add, ← Nat.shiftLeft_or_distrib, shl8_or]
  have h2 : ∀ x : Nat, (x <<< 16) ||| (l2.toNat <<< 8) = (x * 256 + l2.toNat) <<< 8 := by
    intro x
    rw [show (16 : Nat) = 8 + 8 by rfl, Nat.shiftLeft_add, ← Nat.shiftLeft_or_distrib, shl8_or]
  rw [h1, h2, shl8_or]
  simp only [beVal, List.length_cons, List.length_nil]
  omega

theorem readBcmv_ok (t : Nat) (h : t < 2 ^ 32) (h0 : 0 < t) (hd : Header) :
    readBcmv hd ([0x42, 0x43, 0x4D, 0x56] ++ (beBytes 4 t ++ [0, 0])) =
      .ok { hd with bcmvLength := t } := by
  simp only [beBytes, List.cons_append, List.nil_append, readBcmv]
  have e : beVal [UInt8.ofNat (t / 256 ^ 3), UInt8.ofNat (t / 256 ^ 2), UInt8.ofNat (t / 256 ^ 1),
      UInt8.ofNat (t / 256 ^ 0)] = t := by
    have := beVal_beBytes 4 t
    rw [Nat.mod_eq_of_lt (by simpa using h)] at this
    exact this
  rw [or_chain, e]
  simp [h0]

/-- What `drop` does to the bytes at the read position. -/
theorem rest_advance {p : Parser} {a b : Bytes} {n : Nat} (h : p.rest = a ++ b) (hn : n = a.length)
    (st : PState) (pl : Bytes) :
    (Parser.mk p.data pl (p.pos + n) st).rest = b := by
  subst hn
  unfold Parser.rest at *
  simp only
  rw [← List.drop_drop, h, List.drop_left]

theorem rest_length (p : Parser) : p.rest.length = p.data.length - p.pos := by
  unfold Parser.rest; simp

theorem bytesAvailable_eq {p : Parser} (hd : p.data.length < 2 ^ 31) (hp : p.pos ≤ p.data.length) :
    p.bytesAvailable = p.rest.length := by
  rw [rest_length]
  unfold Parser.bytesAvailable subU64 toU64 toI32
  omega

/-- A written header is found where it stands. -/
theorem find_here {p : Parser} {d : UInt8} {r : Bytes} (h : p.rest = 0 :: 0 :: 1 :: d :: r) :
    p.findStartCode = some p.pos := by
  have hl := rest_length p
  rw [h] at hl
  simp only [List.length_cons] at hl
  unfold Parser.findStartCode
  rw [if_neg (by omega), if_neg (by omega), h, findLoop, if_pos ⟨rfl, rfl, rfl⟩]

theorem parsePesHeader_ok {p : Parser} {h : Header} {len : Nat} {r : Bytes}
    (hs : p.state = .parsePesHeader) (hd : p.data.length < 2 ^ 31) (hlen : len < 2 ^ 16)
    (hr : p.rest = ([0x00, 0x00, 0x01, 0xE0] ++ beBytes 2 len) ++ r) :
    p.parsePesHeader h = (.ok { h with streamId := 0xE0, packetLength := len },
      { p with pos := p.pos + 6, state := .parsePesOptionalHeader }) := by
  have hl := rest_length p
  have hl2 := congrArg List.length hr
  simp only [List.length_append, List.length_cons, List.length_nil, beBytes_length] at hl2
  have hav := bytesAvailable_eq hd (p := p) (by omega)
  have hv : p.verifyStartCode = .ok true := by
    unfold Parser.verifyStartCode
    rw [if_neg (by omega), hr]
    rfl
  have hb : (p.rest.getD 4 0).toNat <<< 8 ||| (p.rest.getD 5 0).toNat = len := by
    rw [hr]
    simp only [beBytes, List.cons_append, List.nil_append, List.getD_cons_succ,
      List.getD_cons_zero]
    rw [shl8_or]
    simp
    omega
  have h3 : (p.rest.getD 3 0).toNat = 0xE0 := by
    rw [hr]; rfl
  unfold Parser.parsePesHeader
  rw [if_neg (by simp [hs]), hv]
  simp only
  rw [if_neg (by omega), if_neg (by omega), h3, if_neg (by omega), if_neg (by omega), hb]

theorem unescape_of (x : Bytes) (rest : Bytes) (n : Nat) (hn : x.length = n) (h0 : 0 < n)
    (h : shortRuns 0 x = true) :
    unescape n (escapeLoop 0 x ++ rest) = .ok (x, (escapeLoop 0 x).length) := by
  unfold unescape
  rw [if_neg (by omega), ← hn, unescape_escape 0 x rest h]

/-- No byte of the string needs escaping. -/
def EscapeFree (x : Bytes) : Prop := ¬ [0, 0, 1] <:+: x ∧ ¬ [0, 0, 3] <:+: x

instance (x : Bytes) : Decidable (EscapeFree x) := by unfold EscapeFree; infer_instance

theorem escapeLoop_free (z : Nat) (x : Bytes)
    (h : EscapeFree (List.replicate (min z 2) 0 ++ x)) : escapeLoop z x = x := by
  induction x generalizing z with
  | nil => rfl
  | cons b x ih =>
    have hsub : ∀ y : Bytes, y <:+: List.replicate (min z 2) 0 ++ b :: x → EscapeFree y :=
      fun y hy => ⟨fun h1 => h.1 (h1.trans hy), fun h1 => h.2 (h1.trans hy)⟩
    rw [escapeLoop]
    by_cases h0 : b = 0
    · rw [if_pos h0, ih]
      apply hsub
      subst h0
      have e : List.replicate (min z 2) (0 : UInt8) ++ 0 :: x =
          List.replicate (min z 2 + 1) 0 ++ x := by
        rw [List.replicate_succ', List.append_assoc]; rfl
      have e2 : min z 2 + 1 = (min z 2 + 1 - min (z + 1) 2) + min (z + 1) 2 := by omega
      rw [e, e2, ← List.replicate_append_replicate, List.append_assoc]
      exact (List.suffix_append _ _).isInfix
    · have hx : EscapeFree x := hsub _ (List.suffix_append_of_suffix (List.suffix_cons b x)).isInfix
      rw [if_neg h0, if_neg]
      · rw [ih 0 hx]
      · rintro ⟨h1, h2⟩
        rw [show min z 2 = 2 by omega] at h
        rcases h2 with rfl | rfl
        · exact h.1 ⟨[], x, rfl⟩
        · exact h.2 ⟨[], x, rfl⟩

theorem LongRun.mono {x y : Bytes} (hxy : x <:+: y) (h : LongRun x) : LongRun y :=
  h.imp (fun h => h.trans hxy) (fun h => h.trans hxy)

theorem escape_some {x : Bytes} (h : x ≠ []) : escape x = some (escapeLoop 0 x) := by
  have := List.length_pos_iff.mpr h
  unfold escape
  rw [if_neg (by omega)]

theorem optional_false (pts : Int) :
    optionalHeader false pts = [0x80, 0, 6, 0xff, 0xff, 0xff, 0xff, 0xff, 0xff] := rfl

theorem readOptional_false (pts : Int) (hd : Header) :
    readOptional hd (optionalHeader false pts) = .ok { hd with hasPts := 0, hasDts := 0 } := rfl

theorem pesHeader_true (len pts : Nat) (hp : pts < 2 ^ 33) (hl : len + 9 ≤ 0xFFFF) :
    pesHeader true len pts =
      some ([0x00, 0x00, 0x01, 0xE0] ++ beBytes 2 (len + 9) ++ optionalHeader true pts) := by
  obtain ⟨h1, -, h3⟩ := optional_true pts hp
  unfold pesHeader
  simp only
  rw [if_neg (by omega), escape_some (by intro e; rw [e] at h3; cases h3), h1]
  rfl

theorem pesHeader_false (len : Nat) (pts : Int) (hl : len + 9 ≤ 0xFFFF) :
    pesHeader false len pts =
      some ([0x00, 0x00, 0x01, 0xE0] ++ beBytes 2 (len + 9) ++ optionalHeader false pts) := by
  unfold pesHeader
  simp only
  rw [if_neg (by omega)]
  rfl

/-- Reading the header and optional header of a packet. -/
theorem headers_ok {p : Parser} {w : Bool} {len pts : Nat} {r : Bytes}
    (hs : p.state = .parsePesHeader) (hd : p.data.length < 2 ^ 31) (hlen : len + 9 ≤ 0xFFFF)
    (hp : pts < 2 ^ 33)
    (hr : p.rest = ([0x00, 0x00, 0x01, 0xE0] ++ beBytes 2 (len + 9) ++ optionalHeader w pts) ++ r) :
    ∃ h1 : Header, h1 = { streamId := 0xE0, packetLength := len + 9 } ∧
    p.parsePesHeader {} = (.ok h1,
      { p with pos := p.pos + 6, state := .parsePesOptionalHeader }) ∧
    Parser.parseOptionalHeader { p with pos := p.pos + 6, state := .parsePesOptionalHeader } h1 =
      (.ok { h1 with hasPts := if w then 1 else 0, pts := if w then readBack pts else 0 },
       { p with pos := p.pos + 15, state := .parseBcmvHeader }) ∧
    (Parser.mk p.data p.payload (p.pos + 15) .parseBcmvHeader).rest = r := by
  have ho : escapeLoop 0 (optionalHeader w pts) = optionalHeader w pts ∧
      shortRuns 0 (optionalHeader w pts) = true ∧ (optionalHeader w pts).length = 9 := by
    cases w
    · rw [optional_false]; decide
    · exact optional_true pts hp
  have hb6 : ([0x00, 0x00, 0x01, 0xE0] ++ beBytes 2 (len + 9)).length = 6 := by simp
  have hr6 : (Parser.mk p.data p.payload (p.pos + 6) .parsePesOptionalHeader).rest =
      optionalHeader w pts ++ r :=
    rest_advance (by rw [hr, List.append_assoc]) hb6.symm _ _
  refine ⟨_, rfl, parsePesHeader_ok hs hd (by omega) (by rw [hr, List.append_assoc]), ?_, ?_⟩
  · have hlen6 := rest_length (Parser.mk p.data p.payload (p.pos + 6) .parsePesOptionalHeader)
    rw [hr6, List.length_append, ho.2.2] at hlen6
    simp only at hlen6
    unfold Parser.parseOptionalHeader
    simp only
    rw [if_neg (by simp; omega), hr6]
    have hu := unescape_of (optionalHeader w pts) r 9 ho.2.2 (by omega) ho.2.1
    rw [ho.1] at hu
    rw [hu]
    simp only
    cases w
    · rw [readOptional_false]; simp [Nat.add_assoc, optional_false]
    · rw [readOptional_true pts hp, ho.2.2]; simp [Nat.add_assoc]
  · have := rest_advance hr6 ho.2.2.symm .parseBcmvHeader p.payload
    exact this

theorem parsePesHeader_payload (p : Parser) (h : Header) :
    (p.parsePesHeader h).2.payload = p.payload := by
  unfold Parser.parsePesHeader
  simp only
  repeat' split
  all_goals rfl

theorem parseOptionalHeader_payload (p : Parser) (h : Header) :
    (p.parseOptionalHeader h).2.payload = p.payload := by
  unfold Parser.parseOptionalHeader
  repeat' split
  all_goals rfl

theorem accumulate_payload (L : Nat) (fuel : Nat) (p : Parser) {p' : Parser}
    (h : Parser.accumulate L fuel p = (.ok (), p')) : p.payload <+: p'.payload := by
  induction fuel generalizing p with
  | zero => cases h
  | succ fuel ih =>
    rw [Parser.accumulate] at h
    split at h
    · split at h
      · cases h
      · rename_i start hstart
        simp only at h
        split at h
        · cases h
        · cases h
        · rename_i h1 p1 e1
          split at h
          · cases h
          · cases h
          · rename_i h2 p2 e2
            split at h
            · cases h
            · cases h
            · have hp1 : p1.payload = p.payload := by
                have := parsePesHeader_payload { p with state := .parsePesHeader, pos := start } {}
                rw [e1] at this; exact this
              have hp2 : p2.payload = p1.payload := by
                have := parseOptionalHeader_payload p1 h1
                rw [e2] at this; exact this
              have := ih _ h
              simp only [hp2, hp1] at this
              exact (List.prefix_append _ _).trans this
    · cases h
      exact List.prefix_rfl

theorem fragments_take (pts : Int) (extra : Nat) (x : Bytes) :
    fragments pts extra x = fragments pts extra (x.take extra) := by
  induction extra using Nat.strongRecOn generalizing x with
  | _ extra ih =>
    rw [fragments, fragments]
    by_cases h0 : extra = 0
    · rw [dif_pos h0, dif_pos h0]
    · rw [dif_neg h0, dif_neg h0]
      have hk : kMaxPayloadSize = 32768 := rfl
      rw [hk]
      generalize hn : min 32768 extra = n
      simp only
      rw [List.take_take, Nat.min_eq_left (by omega), ih (extra - n) (by omega) (x.drop n),
        List.drop_take]

theorem fragments_length (pts : Int) (extra : Nat) (x more : Bytes) (hx : x.length = extra)
    (h : fragments pts extra x = some more) : extra ≤ more.length := by
  induction extra using Nat.strongRecOn generalizing x more with
  | _ extra ih =>
    rw [fragments] at h
    by_cases h0 : extra = 0
    · omega
    · rw [dif_neg h0] at h
      have hk : kMaxPayloadSize = 32768 := rfl
      rw [hk] at h
      generalize hn : min 32768 extra = n at h
      simp only at h
      obtain ⟨hdr, -, h⟩ := Option.bind_eq_some_iff.mp h
      obtain ⟨body, hb, h⟩ := Option.bind_eq_some_iff.mp h
      obtain ⟨more', hm, h⟩ := Option.bind_eq_some_iff.mp h
      cases h
      have h1 := ih (extra - n) (by omega) (x.drop n) more' (by rw [List.length_drop]; omega) hm
      have h2 : n ≤ body.length := by
        unfold escape at hb
        split at hb
        · cases hb
        · cases hb
          have := escapeLoop_length_ge 0 (x.take n)
          rw [List.length_take] at this
          omega
      simp only [List.length_append]
      omega

/-- Reading the fragments of a frame. -/
theorem fragments_ok (pts : Nat) (hp : pts < 2 ^ 33) (L : Nat) :
    ∀ (extra : Nat) (x : Bytes) (out post : Bytes) (p : Parser) (fuel : Nat),
      x.length = extra → (∀ y, y <:+: x → ¬ LongRun y) →
      fragments pts extra x = some out → p.rest = out ++ post → p.data.length < 2 ^ 31 →
      p.payload.length + extra = L → extra < fuel →
      ∃ st, Parser.accumulate L fuel p =
        (.ok (), { p with payload := p.payload ++ x, pos := p.pos + out.length, state := st }) := by
  intro extra
  induction extra using Nat.strongRecOn with
  | _ extra ih =>
    intro x out post p fuel hx hlr hf hr hd hL hfuel
    obtain ⟨fuel, rfl⟩ : ∃ n, fuel = n + 1 := ⟨fuel - 1, by omega⟩
    rw [Parser.accumulate]
    by_cases h0 : extra = 0
    · subst h0
      rw [fragments, dif_pos rfl] at hf
      cases hf
      rw [if_neg (by omega)]
      have : x = [] := List.length_eq_zero_iff.mp hx
      subst this
      exact ⟨p.state, by simp⟩
    · rw [if_pos (by omega)]
      rw [fragments, dif_neg h0] at hf
      generalize hn : min kMaxPayloadSize extra = n at hf
      have hk : kMaxPayloadSize = 32768 := rfl
      rw [hk] at hn
      have hn0 : 0 < n := by omega
      have hnm : n ≤ 32768 := by omega
      have hnx : n ≤ x.length := by omega
      have hne : x.take n ≠ [] := List.length_pos_iff.mp (by rw [List.length_take]; omega)
      simp only [Nat.mod_eq_of_lt (show n < 2 ^ 16 by omega)] at hf
      rw [pesHeader_false _ _ (by omega), escape_some hne] at hf
      simp only [bind, Option.bind] at hf
      split at hf
      · cases hf
      rename_i more hmore
      simp only [Option.some.injEq] at hf
      subst hf
      have hr' : p.rest = ([0x00, 0x00, 0x01, 0xE0] ++ beBytes 2 (n + 9) ++
          optionalHeader false pts) ++ (escapeLoop 0 (x.take n) ++ (more ++ post)) := by
        rw [hr]; simp only [List.append_assoc]
      have hfind := find_here (p := p) (d := 0xE0) (by rw [hr']; rfl)
      rw [hfind]
      simp only
      obtain ⟨h1, eh1, e1, e2, e3⟩ := headers_ok
        (p := { p with state := .parsePesHeader, pos := p.pos }) (w := false) (len := n)
        (pts := pts) rfl hd (by omega) hp hr'
      rw [e1]
      simp only at e2 e3 ⊢
      rw [e2]
      simp only
      rw [e3]
      have hpl : subU64 h1.packetLength 9 = n := by
        subst eh1; unfold subU64 toU64; simp only; omega
      rw [hpl, unescape_of (x.take n) _ n (by rw [List.length_take]; omega) hn0
        ((shortRuns_iff _).mpr (hlr _ (List.take_prefix _ _).isInfix))]
      simp only
      have hr2 := rest_advance (n := (escapeLoop 0 (x.take n)).length) e3 rfl .parseBcmvHeader
        (p.payload ++ x.take n)
      obtain ⟨st, hst⟩ := ih (extra - n) (by omega) (x.drop n) more post
        { data := p.data, payload := p.payload ++ x.take n,
          pos := p.pos + 15 + (escapeLoop 0 (x.take n)).length, state := .parseBcmvHeader } fuel
        (by rw [List.length_drop]; omega)
        (fun y hy => hlr y (hy.trans (List.drop_suffix _ _).isInfix)) hmore hr2 hd
        (by simp only [List.length_append, List.length_take]; omega) (by omega)
      refine ⟨st, ?_⟩
      rw [hst]
      simp only [Prod.mk.injEq, true_and, Parser.mk.injEq, List.append_assoc,
        List.take_append_drop, and_true]
      have : (optionalHeader false (pts : Int)).length = 9 := rfl
      simp only [List.length_append, List.length_cons, List.length_nil, beBytes_length, this]
      omega

theorem escapeLoop_bcmv (x : Bytes) :
    escapeLoop 0 ([0x42, 0x43, 0x4D, 0x56] ++ x) = [0x42, 0x43, 0x4D, 0x56] ++ escapeLoop 0 x := by
  simp only [List.cons_append, List.nil_append]
  rw [escapeLoop_ne (by decide) (by omega), escapeLoop_ne (by decide) (by omega),
    escapeLoop_ne (by decide) (by omega), escapeLoop_ne (by decide) (by omega)]

theorem bcmvHeader_eq (n : Nat) (h : n + 10 < 2 ^ 32) :
    bcmvHeader n = some (escapeLoop 0 ([0x42, 0x43, 0x4D, 0x56] ++ (beBytes 4 (n + 10) ++ [0, 0]))) := by
  unfold bcmvHeader
  rw [escapeLoop_bcmv]
  simp only [Nat.mod_eq_of_lt h]
  rw [escape_some (by simp)]
  rfl

/-- The bytes of a range. -/
def rangeBytes (data : Bytes) (r : Vp9.Range) : Bytes := slice data r.offset r.length

/-- The PES packets of a range, in terms of the range's bytes. -/
theorem writeRange_eq {data : Bytes} {r : Vp9.Range} {pts : Nat} {out : Bytes} (hp : pts < 2 ^ 33)
    (hl : r.length + 10 < 2 ^ 32) (hw : writeRange data pts r = some out) :
    let x := rangeBytes data r
    let k := min 32768 x.length
    x.length = r.length ∧ 0 < r.length ∧
    ∃ more, fragments pts (x.length - k) (x.drop k) = some more ∧
      out = ([0x00, 0x00, 0x01, 0xE0] ++ beBytes 2 (k + 10 + 9) ++ optionalHeader true pts) ++
        (escapeLoop 0 ([0x42, 0x43, 0x4D, 0x56] ++ (beBytes 4 (x.length + 10) ++ [0, 0])) ++
          (escapeLoop 0 (x.take k) ++ more)) := by
  intro x k
  unfold writeRange at hw
  simp only at hw
  split at hw
  · cases hw
  rename_i hle
  have hx : x.length = r.length := by
    show (slice _ _ _).length = _
    rw [slice_length]; omega
  generalize he : (if r.length > kMaxPayloadSize then r.length - kMaxPayloadSize else 0) = extra at hw
  have hk : kMaxPayloadSize = 32768 := rfl
  rw [hk] at he
  have hek : r.length - extra = k := by
    show _ = min 32768 x.length
    rw [hx]; split at he <;> omega
  have hk2 : k ≤ 32768 := Nat.min_le_left ..
  rw [hek, Nat.mod_eq_of_lt (show k + 10 < 2 ^ 16 by omega), pesHeader_true _ _ hp (by omega),
    Nat.mod_eq_of_lt (show r.length < 2 ^ 32 by omega), bcmvHeader_eq _ hl] at hw
  have h1 : (data.drop r.offset).take k = x.take k := by
    show _ = ((data.drop r.offset).take r.length).take k
    rw [List.take_take, Nat.min_eq_left (by rw [← hek]; omega)]
  rw [h1] at hw
  simp only [bind, Option.bind] at hw
  have hne : x.take k ≠ [] ∧ 0 < r.length := by
    by_cases h0 : 0 < r.length
    · exact ⟨List.length_pos_iff.mp (by rw [List.length_take]; omega), h0⟩
    · exfalso
      have : x.take k = [] := by
        rw [List.take_eq_nil_iff]; left; omega
      rw [this] at hw
      cases hw
  rw [escape_some hne.1] at hw
  simp only at hw
  split at hw
  · cases hw
  rename_i more hmore
  refine ⟨hx, hne.2, more, ?_, ?_⟩
  · rw [← hmore]
    have e2 : x.length - k = extra := by rw [hx, ← hek]; split at he <;> omega
    rw [e2]
    by_cases h0 : extra = 0
    · subst h0; rw [fragments, fragments]; rfl
    · -- the rest of the payload is only looked at as far as the range goes
      have hlen : extra ≤ (x.drop k).length := by rw [List.length_drop]; omega
      have e3 : x.drop k = ((data.drop r.offset).drop k).take extra := by
        show ((data.drop r.offset).take r.length).drop k = _
        rw [List.drop_take]
        congr 1
        omega
      rw [e3]
      exact (fragments_take _ _ _).symm
  · simp only [Option.some.injEq] at hw
    rw [← hw, hx]
    simp only [List.append_assoc]

/-- Bytes the reader gets back when they are sent as one unit: no run of three zeros before
`01` or `03`, and if they do not fit in one packet, nothing to escape in the first one. -/
def PesSafe (x : Bytes) : Prop :=
  ¬ LongRun x ∧ (32768 < x.length → EscapeFree (x.take 32768))

instance (x : Bytes) : Decidable (PesSafe x) := by unfold PesSafe; infer_instance

/-- The parser's steps before the payload, on the packets of a range. -/
theorem front_ok {p : Parser} {pts k n : Nat} {r : Bytes} (hp : pts < 2 ^ 33)
    (hs : p.state = .findStartCode) (hd : p.data.length < 2 ^ 31) (hk : k ≤ 32768)
    (hn : n + 10 < 2 ^ 32) (hn0 : 0 < n)
    (hr : p.rest = ([0x00, 0x00, 0x01, 0xE0] ++ beBytes 2 (k + 10 + 9) ++ optionalHeader true pts) ++
      (escapeLoop 0 ([0x42, 0x43, 0x4D, 0x56] ++ (beBytes 4 (n + 10) ++ [0, 0])) ++ r)) :
    ∃ (h1 h2 h3 : Header) (q : Parser),
      ¬ (p.state ≠ .findStartCode ∨ p.bytesAvailable = 0) ∧
      p.findStartCode = some p.pos ∧
      Parser.parsePesHeader { p with state := .parsePesHeader, pos := p.pos } {} =
        (.ok h1, { p with pos := p.pos + 6, state := .parsePesOptionalHeader }) ∧
      Parser.parseOptionalHeader { p with pos := p.pos + 6, state := .parsePesOptionalHeader } h1 =
        (.ok h2, { p with pos := p.pos + 15, state := .parseBcmvHeader }) ∧
      Parser.parseBcmvHeader { p with pos := p.pos + 15, state := .parseBcmvHeader } h2 =
        (.ok h3, q) ∧
      h3 = { packetLength := k + 10 + 9, streamId := 0xE0, hasPts := 1, hasDts := 0,
             pts := readBack pts, bcmvLength := n + 10 } ∧
      q.rest = r ∧ q.state = .findStartCode ∧ q.payload = p.payload ∧ q.data = p.data ∧
      q.pos = p.pos + (15 + (escapeLoop 0 ([0x42, 0x43, 0x4D, 0x56] ++
        (beBytes 4 (n + 10) ++ [0, 0]))).length) := by
  have hlr := rest_length p
  have hlr2 := congrArg List.length hr
  simp only [List.length_append, List.length_cons, List.length_nil, beBytes_length] at hlr2
  have hav := bytesAvailable_eq (p := p) hd (by omega)
  obtain ⟨h1, eh1, e1, e2, e3⟩ := headers_ok
    (p := { p with state := .parsePesHeader, pos := p.pos }) (w := true) (len := k + 10)
    (pts := pts) rfl hd (by omega) hp hr
  simp only at e1 e2 e3
  refine ⟨h1, _, Header.mk (k + 10 + 9) 0xE0 1 0 (readBack pts) (n + 10),
    Parser.mk p.data p.payload (p.pos + 15 + (escapeLoop 0 ([0x42, 0x43, 0x4D, 0x56] ++
        (beBytes 4 (n + 10) ++ [0, 0]))).length) .findStartCode, ?_, ?_, e1, e2, ?_, rfl,
    ?_, rfl, rfl, rfl, ?_⟩
  · rintro (h | h)
    · exact h hs
    · rw [hav] at h; omega
  · exact find_here (d := 0xE0) (by rw [hr]; rfl)
  · unfold Parser.parseBcmvHeader
    rw [if_neg (by simp), e3, unescape_of _ _ 10 (by simp) (by omega)
      (bcmv_short _ hn (by omega) (by omega))]
    simp only
    rw [readBcmv_ok _ hn (by omega)]
    subst eh1
    simp
  · exact rest_advance e3 rfl _ _
  · simp only; omega

theorem subU64_of_le {a b : Nat} (h : b ≤ a) (ha : a < 2 ^ 64) : subU64 a b = a - b := by
  unfold subU64 toU64; omega

/-- A range's packets are read back as the range's bytes. -/
theorem range_ok {data : Bytes} {r : Vp9.Range} {pts : Nat} {out post : Bytes} {p : Parser}
    (hp : pts < 2 ^ 33) (hl : r.length + 10 < 2 ^ 32) (hw : writeRange data pts r = some out)
    (hs : p.state = .findStartCode) (hpl : p.payload = []) (hd : p.data.length < 2 ^ 31)
    (hr : p.rest = out ++ post) (hsafe : PesSafe (rangeBytes data r)) :
    ∃ h : Header, h.hasPts = 1 ∧ h.pts = readBack pts ∧ p.parseNextPacket =
      (.ok (h, rangeBytes data r), { p with pos := p.pos + out.length }) := by
  have hwe := writeRange_eq hp hl hw
  simp only at hwe
  generalize hx : rangeBytes data r = x at *
  obtain ⟨hxl, h0, more, hmore, ho⟩ := hwe
  generalize hk : min 32768 x.length = k at *
  have hol := congrArg List.length ho
  have hob : (optionalHeader true (pts : Int)).length = 9 := (optional_true pts hp).2.2
  simp only [List.length_append (as := _ ++ _ ++ _), List.length_append,
    List.length_cons, List.length_nil, beBytes_length, hob] at hol
  obtain ⟨h1, h2, h3, q, g1, g2, g3, g4, g5, g6, g7, g8, g9, g10, g11⟩ := front_ok
    (r := (escapeLoop 0 (x.take k) ++ (more ++ post))) hp hs hd (by omega : k ≤ 32768)
    (n := x.length) (by omega) (by omega) (by rw [hr, ho]; simp only [List.append_assoc])
  refine ⟨h3, by rw [g6], by rw [g6], ?_⟩
  have hql := rest_length q
  rw [g7, g10] at hql
  have hge := escapeLoop_length_ge 0 (x.take k)
  rw [List.length_take, Nat.min_eq_left (by omega)] at hge
  simp only [List.length_append] at hql
  unfold Parser.parseNextPacket
  rw [if_neg g1, g2]
  simp only
  rw [g3]; simp only
  rw [g4]; simp only
  rw [g5]; simp only
  have e1 : subU64 h3.bcmvLength 10 = x.length := by
    rw [g6]; simp only; rw [subU64_of_le (by omega) (by omega)]; try omega
  have e2 : subU64 h3.packetLength 9 = k + 10 := by
    rw [g6]; simp only; rw [subU64_of_le (by omega) (by omega)]; try omega
  have e3 : h3.bcmvLength = x.length + 10 := by rw [g6]
  have e4 : h3.packetLength = k + 19 := by rw [g6]
  have hxp : x.length - k ≤ more.length := by
    have hfl := fragments_length pts (x.length - k) (x.drop k) more (by rw [List.length_drop]) hmore
    exact hfl
  rw [e1, e2, e3, g10]
  rw [if_neg (by unfold two64; omega)]
  have hlen15 : 15 = 4 + 2 + 9 := rfl
  by_cases hfrag : k = x.length
  · -- one packet
    rw [if_neg (by omega), g7]
    have htk : x.take k = x := by rw [hfrag, List.take_length]
    rw [htk] at hol hge ⊢
    rw [unescape_of x _ x.length rfl (by omega) ((shortRuns_iff _).mpr hsafe.1)]
    simp only
    have hm : more = [] := by
      rw [show x.length - k = 0 by omega, fragments, dif_pos rfl] at hmore
      cases hmore; rfl
    subst hm
    rw [g9, hpl]
    simp only [Prod.mk.injEq, List.nil_append, true_and, Parser.mk.injEq, hs, and_true]
    rw [g11, hol]
    simp only [List.length_nil]
    omega
  · -- fragments
    have hk32 : k = 32768 := by omega
    rw [if_pos (by omega)]
    have hfree : escapeLoop 0 (x.take k) = x.take k :=
      escapeLoop_free 0 _ (by rw [hk32]; exact hsafe.2 (by omega))
    rw [hfree] at g7 hol hql
    unfold Parser.accumulateFragmented
    have e5 : subU64 h3.packetLength 19 = k := by
      rw [g6]; simp only; rw [subU64_of_le (by omega) (by omega)]; try omega
    simp only [e5]
    have htl : (x.take k).length = k := by rw [List.length_take]; omega
    rw [if_neg (by rw [g7, List.length_append, htl]; omega), g7,
      show (x.take k ++ (more ++ post)).take k = x.take k by
        conv => lhs; rw [← htl]
        rw [htl, List.take_append_of_le_length (by omega), List.take_of_length_le (by omega)]]
    have hqr := rest_advance g7 htl.symm .findStartCode (q.payload ++ x.take k)
    obtain ⟨st, hst⟩ := fragments_ok pts hp x.length (x.length - k) (x.drop k) more post
      { q with payload := q.payload ++ x.take k, pos := q.pos + k, state := .findStartCode }
      (q.data.length + 1)
      (by rw [List.length_drop])
      (fun y hy hh => hsafe.1 (LongRun.mono (hy.trans (List.drop_suffix _ _).isInfix) hh))
      hmore hqr (by rw [g10]; exact hd)
      (by rw [g9, hpl]; simp only [List.nil_append, htl]; omega)
      (by rw [g10]; omega)
    rw [hst]
    simp only [Prod.mk.injEq, Res.ok.injEq, true_and, Parser.mk.injEq]
    rw [g9, hpl, List.nil_append, List.take_append_drop]
    rw [g11, hol, htl]
    simp only [g10, hs, true_and, and_true]
    omega

theorem kept_arith (a' b c7 r m V : Nat) (hV : V = a' % 4 * 1073741824 + b * 32768 + (m * 128 + r))
    (hb : b < 32768) (hc : c7 < 256) (hr : r < 128) (hm : m < 256) (ha : a' < 8) :
    V < 4294967296 ∧ (V = a' * 1073741824 + b * 32768 + (c7 * 128 + r) ↔ a' < 4 ∧ m = c7) := by
  omega

theorem toU64_toI32_eq (v p : Nat) (hv : v < 4294967296) (hp : p < 8589934592) :
    toU64 (toI32 v) = p ↔ v = p ∧ v < 2147483648 := by
  by_cases h : v < 2147483648
  · have : toU64 (toI32 v) = v := by
      unfold toU64 toI32
      omega
    rw [this]; simp [h]
  · have : toU64 (toI32 v) = 18446744069414584320 + v := by
      unfold toU64 toI32
      omega
    rw [this]; omega

theorem readBack_eq (pts : Nat) (h : pts < 2 ^ 33) : readBack pts = pts ↔ PtsKept pts := by
  have h' : pts < 8589934592 := h
  unfold readBack PtsKept
  have e1 : pts % 2 ^ 15 / 128 = pts / 128 % 256 := by
    rw [show (2 : Nat) ^ 15 = 32768 from rfl]; omega
  have e2 : pts / 2 ^ 15 % 2 ^ 15 / 128 = pts / 4194304 % 256 := by
    rw [show (2 : Nat) ^ 15 = 32768 from rfl]; omega
  rw [e1, e2]
  have hm : pts / 128 % 256 ||| pts / 4194304 % 256 < 2 ^ 8 :=
    Nat.or_lt_two_pow (by omega) (by omega)
  rw [show (2 : Nat) ^ 8 = 256 from rfl] at hm
  generalize pts / 128 % 256 ||| pts / 4194304 % 256 = m at *
  have e3 : pts / 2 ^ 30 = pts / 1073741824 := by
    rw [show (2 : Nat) ^ 30 = 1073741824 by decide +kernel]
  have e4 : (2 : Nat) ^ 15 = 32768 := rfl
  have e5 : (2 : Nat) ^ 30 = 1073741824 := by decide +kernel
  rw [e4, e5]
  have hsplit : pts = pts / 1073741824 * 1073741824 + pts / 32768 % 32768 * 32768 +
      (pts / 128 % 256 * 128 + pts % 128) := by omega
  obtain ⟨hV, hiff⟩ := kept_arith (pts / 1073741824) (pts / 32768 % 32768) (pts / 128 % 256)
    (pts % 128) m _ rfl (by omega) (by omega) (by omega) hm (by omega)
  rw [← hsplit] at hiff
  rw [toU64_toI32_eq _ _ hV h', hiff]
  constructor
  · rintro ⟨⟨g1, g2⟩, g3⟩
    have := hiff.mpr ⟨g1, g2⟩
    exact ⟨by omega, g2⟩
  · rintro ⟨g1, g2⟩
    have g0 : pts / 1073741824 < 4 := by omega
    have := hiff.mpr ⟨g0, g2⟩
    exact ⟨⟨g0, g2⟩, by omega⟩

theorem scan_threes (z : Nat) (y : Bytes) (h : ∀ b ∈ y, b = 3) : scan z y = true := by
  induction y generalizing z with
  | nil => rfl
  | cons b y ih =>
    have hb := h b (by simp)
    subst hb
    rw [scan, if_neg (by decide), if_neg (fun h => absurd h.1 (by decide))]
    exact ih 0 fun b hb => h b (by simp [hb])

theorem shifted_threes (y : Bytes) (h : (3 :: escapeLoop 0 y).take y.length = y) :
    ∀ b ∈ y, b = 3 := by
  induction y with
  | nil => simp
  | cons b y ih =>
    rw [List.length_cons, List.take_succ_cons] at h
    obtain ⟨h1, h2⟩ := List.cons_eq_cons.mp h
    subst h1
    rw [escapeLoop, if_neg (by decide), if_neg (by omega)] at h2
    intro b hb
    rcases List.mem_cons.mp hb with hb | hb
    · exact hb
    · exact ih h2 b hb

theorem scan_of_take (z : Nat) (y : Bytes) (h : (escapeLoop z y).take y.length = y) :
    scan z y = true := by
  induction y generalizing z with
  | nil => rfl
  | cons b y ih =>
    rw [List.length_cons, escapeLoop] at h
    rw [scan]
    by_cases h0 : b = 0
    · rw [if_pos h0, List.take_succ_cons] at h
      rw [if_pos h0]
      exact ih _ (List.cons_eq_cons.mp h).2
    · rw [if_neg h0] at h
      rw [if_neg h0]
      by_cases h1 : z ≥ 2 ∧ (b = 1 ∨ b = 3)
      · rw [if_pos h1, List.take_succ_cons] at h
        obtain ⟨g1, g2⟩ := List.cons_eq_cons.mp h
        subst g1
        rw [if_neg (fun h => absurd h.1 (by decide))]
        exact scan_threes 0 y (shifted_threes y g2)
      · rw [if_neg h1, List.take_succ_cons] at h
        rw [if_neg (fun h => h1 ⟨h.2, Or.inl h.1⟩)]
        exact ih _ (List.cons_eq_cons.mp h).2

/-- A long unit with a start code in its first 32768 bytes is not recovered. -/
theorem range_lost {data : Bytes} {r : Vp9.Range} {pts : Nat} {out post : Bytes} {p : Parser}
    (hp : pts < 2 ^ 33) (hl : r.length + 10 < 2 ^ 32) (hw : writeRange data pts r = some out)
    (hs : p.state = .findStartCode) (hpl : p.payload = []) (hd : p.data.length < 2 ^ 31)
    (hr : p.rest = out ++ post) (hlong : 32768 < (rangeBytes data r).length)
    (hsc : HasStartCode ((rangeBytes data r).take 32768)) (h : Header) (y : Bytes)
    (hy : p.parseNextPacket.1 = .ok (h, y)) : y ≠ rangeBytes data r := by
  have hwe := writeRange_eq hp hl hw
  simp only at hwe
  generalize hx : rangeBytes data r = x at *
  obtain ⟨hxl, h0, more, hmore, ho⟩ := hwe
  rw [Nat.min_eq_left (by omega)] at hmore ho
  have hol := congrArg List.length ho
  have hob : (optionalHeader true (pts : Int)).length = 9 := (optional_true pts hp).2.2
  simp only [List.length_append (as := _ ++ _ ++ _), List.length_append,
    List.length_cons, List.length_nil, beBytes_length, hob] at hol
  obtain ⟨h1, h2, h3, q, g1, g2, g3, g4, g5, g6, g7, g8, g9, g10, g11⟩ := front_ok
    (r := (escapeLoop 0 (x.take 32768) ++ (more ++ post))) hp hs hd (Nat.le_refl 32768)
    (n := x.length) (by omega) (by omega) (by rw [hr, ho]; simp only [List.append_assoc])
  have hql := rest_length q
  rw [g7, g10] at hql
  have hge := escapeLoop_length_ge 0 (x.take 32768)
  rw [List.length_take, Nat.min_eq_left (by omega)] at hge
  simp only [List.length_append] at hql
  unfold Parser.parseNextPacket at hy
  rw [if_neg g1, g2] at hy
  simp only at hy
  rw [g3] at hy; simp only at hy
  rw [g4] at hy; simp only at hy
  rw [g5] at hy; simp only at hy
  have e1 : subU64 h3.bcmvLength 10 = x.length := by
    rw [g6]; simp only; rw [subU64_of_le (by omega) (by omega)]; try omega
  have e2 : subU64 h3.packetLength 9 = 32768 + 10 := by
    rw [g6]; simp only; rw [subU64_of_le (by omega) (by omega)]; try omega
  have e3 : h3.bcmvLength = x.length + 10 := by rw [g6]
  have e4 : h3.packetLength = 32768 + 19 := by rw [g6]
  have e5 : subU64 h3.packetLength 19 = 32768 := by
    rw [g6]; simp only; rw [subU64_of_le (by omega) (by omega)]; try omega
  rw [e1, e2, e3, g10] at hy
  split at hy
  · cases hy
  rw [if_pos (by omega)] at hy
  unfold Parser.accumulateFragmented at hy
  simp only [e5] at hy
  rw [if_neg (by rw [g7, List.length_append]; omega), g7,
    List.take_append_of_le_length (by omega), g9, hpl, List.nil_append] at hy
  split at hy
  · cases hy
  · cases hy
  · rename_i p' hacc
    have hpre := accumulate_payload _ _ _ hacc
    simp only [Res.ok.injEq, Prod.mk.injEq] at hy
    obtain ⟨-, rfl⟩ := hy
    intro heq
    simp only [heq] at hpre
    have htl : ((escapeLoop 0 (x.take 32768)).take 32768).length = 32768 := by
      rw [List.length_take]; omega
    have := List.prefix_iff_eq_take.mp hpre
    rw [htl] at this
    have hl2 : (x.take 32768).length = 32768 := by rw [List.length_take]; omega
    have hscan := scan_of_take 0 (x.take 32768) (by rw [hl2]; exact this)
    exact not_hasStartCode_of_scan hscan hsc

end Verif.Pes

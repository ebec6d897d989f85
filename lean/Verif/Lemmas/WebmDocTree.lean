/-
Master parsers read well-formed sequences of elements as the reference reading says.
-/
import Verif.Lemmas.WebmDocMaster

namespace Verif.Web
open Verif Verif.Spec

/-- Which announced elements the callback wants left out. -/
def Cb.skips (cb : Cb) : Log → Meta → Bool := fun L m => (cb L (.element m)).2

/-! ### The header at the front of a sequence -/

/-- The first header of a sequence, given the one after it. -/
def _root_.Verif.Spec.Tree.first : Tree → Option Hd → Option Hd
  | .nil, after => after
  | .leaf id w p _, _ => some ⟨id, w, p.data.length⟩
  | .node id w known kids _, _ => some ⟨id, w, if known then kids.bytes.length else 2 ^ (7 * w) - 1⟩

/-- The bytes begin with that header, or there are none. -/
def HdAt (o : Option Hd) (B : Bytes) : Prop :=
  match o with
  | none => B = []
  | some h => h.Ok ∧ ∃ r, B = h.bytes ++ r ∧ (h.size ≠ kUnknownElementSize → h.size ≤ r.length)

def hlen : Option Hd → Nat
  | none => 0
  | some h => h.len

theorem Hd.size_known {id w v : Nat} (h : v + 1 < 2 ^ (7 * w)) : Hd.size ⟨id, w, v⟩ = v := by
  simp only [Hd.size]
  rw [if_neg (by omega)]

theorem Hd.size_unknown (id w : Nat) : Hd.size ⟨id, w, 2 ^ (7 * w) - 1⟩ = kUnknownElementSize := by
  simp only [Hd.size]
  rw [if_pos (by have := Nat.two_pow_pos (7 * w); omega)]

theorem pow7_le {w : Nat} (h : w ≤ 8) : 2 ^ (7 * w) ≤ 2 ^ 56 := Nat.pow_le_pow_right (by decide) (by omega)

theorem known_ne {v w : Nat} (h8 : w ≤ 8) (h : v + 1 < 2 ^ (7 * w)) : v < 2 ^ 56 ∧ v ≠ kUnknownElementSize := by
  have := pow7_le h8
  unfold kUnknownElementSize
  omega

theorem _root_.Verif.Spec.Tree.first_at {t : Tree} {ks : Kids} {sized : Bool} {a : Option Nat} {after : Option Hd}
    {rest : Bytes} (hw : t.WellFormed ks sized a) (ha : HdAt after rest) :
    HdAt (t.first after) (t.bytes ++ rest) := by
  cases t with
  | nil => exact ha
  | leaf id w p next =>
    obtain ⟨h1, h2, h3, h4, -⟩ := hw
    refine ⟨⟨h1, h2, h3, by simp only; omega⟩, p.data ++ (next.bytes ++ rest), ?_, fun _ => ?_⟩
    · simp [Tree.bytes, Hd.bytes]
    · rw [Hd.size_known h4]; simp
  | node id w known kids next =>
    obtain ⟨h1, h2, h3, h4, -⟩ := hw
    cases known with
    | false =>
      refine ⟨⟨h1, h2, h3, ?_⟩, kids.bytes ++ (next.bytes ++ rest), ?_, fun h => ?_⟩
      · have := Nat.two_pow_pos (7 * w)
        simp only; simp; omega
      · simp [Tree.bytes, Hd.bytes]
      · exact absurd (Hd.size_unknown id w) h
    | true =>
      have h5 : kids.bytes.length + 1 < 2 ^ (7 * w) := by
        split at h4
        · simp only [if_true] at h4; exact h4.1
        · exact h4.elim
      refine ⟨⟨h1, h2, h3, by simp only [if_true]; omega⟩, kids.bytes ++ (next.bytes ++ rest), ?_, fun _ => ?_⟩
      · simp [Tree.bytes, Hd.bytes]
      · simp only [if_true]; rw [Hd.size_known h5]; simp

theorem _root_.Verif.Spec.Tree.follow_first (t : Tree) (a : Option Hd) :
    t.follow (a.map Hd.id) = (t.first a).map Hd.id := by
  cases t <;> rfl

theorem _root_.Verif.Spec.Tree.bytes_nil {t : Tree} {ks : Kids} {sized : Bool} {a : Option Nat}
    (hw : t.WellFormed ks sized a) : t.bytes.length = 0 ↔ t = .nil := by
  cases t with
  | nil => simp [Tree.bytes]
  | leaf id w p next =>
    have := hw.2.1
    simp [Tree.bytes, header, Par.vint_length]; omega
  | node id w known kids next =>
    have := hw.2.1
    simp [Tree.bytes, header, Par.vint_length]; omega

/-! ### The reference reading, one element at a time -/

theorem _root_.Verif.Spec.Tree.read_leaf (skips : Log → Meta → Bool) (ks : Kids) (due : Option Meta) (id w : Nat)
    (p : Payload) (next : Tree) (pos : Nat) (t : Told) :
    (Tree.leaf id w p next).read skips ks due pos t =
      next.read skips ks due (pos + (byteWidth id + w) + p.data.length)
        ((Tree.leaf id w p .nil).read skips ks due pos t) := by
  simp only [Tree.read]
  split
  · rfl
  · split <;> rfl

theorem _root_.Verif.Spec.Tree.read_node (skips : Log → Meta → Bool) (ks : Kids) (due : Option Meta) (id w : Nat)
    (known : Bool) (kids next : Tree) (pos : Nat) (t : Told) {st co : Bool} {r : Wrap} {ks' : Kids}
    (he : ks.entry id = some (st, co, .master r ks')) :
    (Tree.node id w known kids next).read skips ks due pos t =
      next.read skips ks due (pos + (byteWidth id + w) + kids.bytes.length)
        ((Tree.node id w known kids .nil).read skips ks due pos t) := by
  simp only [Tree.read, he]
  generalize (if known = true then kids.bytes.length else 2 ^ 64 - 1) = z
  split <;> rfl

/-! ### The end of a master element -/

section
variable {kid : Nat → Kid} {I : ∀ id, (kid id).E.σ → Prop}

/-- All children have been read; `c` is the header read beyond the end. -/
structure MSt.AtEnd (w : Wrap) (me : Meta) (v : Val) (begun : Bool) (c : Option Meta) (m : MSt kid) : Prop where
  state : m.state = .ended
  me : m.me = me
  skip : m.skip = false
  value : m.value = v
  begun : w.start = .tagged → m.started = begun
  cached : (if m.cached then some m.cm else none) = c

theorem MSt.finish (hk : ∀ id, (kid id).E.Good (I id)) {cb : Cb} (hcb : cb.Reads) {w : Wrap}
    {known : Nat → Bool} {m : MSt kid} {L : Log} {me : Meta} {v : Val} {b : Bool} {c : Option Meta}
    (hm : m.AtEnd w me v b c) (hi : m.Inv I) (s : Src) (hf : c ≠ none → w.forward = true) :
    ∃ m', MSt.feed cb w known false (m, L) s = (.okCompleted, (m',
        L ++ (if w.start = .tagged ∧ b = false then [.start me v] else []) ++
        (if w.complete then [.complete me v] else [])), s, 0) ∧
      (masterEP cb w known kid).skipped m' = false ∧ m'.value = v ∧ (masterEP cb w known kid).cached m' = c := by
  obtain ⟨me, mx, st0, tot, idp, szp, cm, ch, cs, sk, sta, val, ca⟩ := m
  obtain ⟨c1, c2, c3, c4, c5, c6⟩ := hm
  simp only at c1 c2 c3 c4 c5 c6
  subst c1 c2 c3 c4
  have hcd : ∀ (x : MSt kid), x.cached = ca → x.cm = cm → (masterEP cb w known kid).cached x = c := by
    intro x h1 h2
    simp only [masterEP, h1, h2]
    rw [← c6]
    cases ca with
    | false => simp
    | true => simp [hf (by rw [← c6]; simp)]
  -- the last pass
  have last : ∀ (x : MSt kid) (L : Log), x.state = .complete → x.skip = false → x.me = me → x.value = val →
      MSt.body cb w known false (x, L) s =
        (some .okCompleted, (x, L ++ (if w.complete then [.complete me val] else [])), s, 0) := by
    intro x L h1 h2 h3 h4
    unfold MSt.body
    simp only [h1, h2, h3, h4]
    cases w.complete with
    | false => simp
    | true => simp [hcb.complete]
  by_cases ht : w.start = .tagged ∧ b = false
  · rw [if_pos ht]
    have hs : sta = false := (c5 ht.1).trans ht.2
    subst hs
    let m1 : MSt kid := { me := me, maxSize := mx, state := .complete, total := tot, idp := idp, szp := szp, cm := cm, child := ch, childSkip := cs, skip := false, started := true, value := val, cached := ca }
    have e1 : MSt.body cb w known false (({ me := me, maxSize := mx, state := .ended, total := tot, idp := idp, szp := szp, cm := cm, child := ch, childSkip := cs, skip := false, started := false, value := val, cached := ca } : MSt kid), L) s =
        (none, (m1, L ++ [.start me val]), s, 0) := by
      unfold MSt.body
      simp only [ht.1]
      rw [if_pos (by simp)]
      unfold MSt.callStart
      simp only [hcb.start]
      rfl
    obtain ⟨-, -, r⟩ := MSt.Runs.pass hk hcb.proper e1 hi
    refine ⟨m1, ?_, by simp [masterEP, m1], rfl, hcd _ rfl rfl⟩
    rw [r]
    unfold MSt.feed
    rw [loopFeed_ret (last m1 _ rfl rfl rfl rfl)]
    simp [m1, addN]
  · rw [if_neg ht]
    let m1 : MSt kid := { me := me, maxSize := mx, state := .complete, total := tot, idp := idp, szp := szp, cm := cm, child := ch, childSkip := cs, skip := false, started := sta, value := val, cached := ca }
    have e1 : MSt.body cb w known false (({ me := me, maxSize := mx, state := .ended, total := tot, idp := idp, szp := szp, cm := cm, child := ch, childSkip := cs, skip := false, started := sta, value := val, cached := ca } : MSt kid), L) s =
        (none, (m1, L), s, 0) := by
      unfold MSt.body
      simp only
      rw [if_neg (fun h => ht ⟨h.1, (c5 h.1).symm.trans h.2⟩)]
    obtain ⟨-, -, r⟩ := MSt.Runs.pass hk hcb.proper e1 hi
    refine ⟨m1, ?_, by simp [masterEP, m1], rfl, hcd _ rfl rfl⟩
    rw [r]
    unfold MSt.feed
    rw [loopFeed_ret (last m1 _ rfl rfl rfl rfl)]
    simp [m1, addN]

/-! ### Ready for the next child -/

/-- Either about to read the next header, or it has been read already by the child before. -/
def MSt.Ready (m : MSt kid) (s : Src) (total pos : Nat) (first : Option Hd) (B : Bytes) : Prop :=
  (m.AtId ∧ m.total = total ∧ s = allAtOnce B pos) ∨
  (∃ h, first = some h ∧ m.AtHdr (h.at pos) ∧ m.total = total + h.len ∧
    s = allAtOnce (B.drop h.len) (pos + h.len))

theorem MSt.Ready.header (hk : ∀ id, (kid id).E.Good (I id)) {cb : Cb} (hcb : cb.Proper) {w : Wrap}
    {known : Nat → Bool} {m : MSt kid} {L : Log} {h : Hd} (ho : h.Ok) {s : Src} {r : Bytes} {total pos : Nat}
    (hr : m.Ready s total pos (some h) (h.bytes ++ r)) {me : Meta} {mx : Nat} {v : Val} {b : Bool}
    (hc : m.Ctx w me mx v b) :
    ∃ m', MSt.Runs cb w known I (m, L) s (m', L) (allAtOnce r (pos + h.len)) ∧
      m'.AtHdr (h.at pos) ∧ m'.total = total + h.len ∧ m'.Ctx w me mx v b := by
  rcases hr with ⟨h1, h2, h3⟩ | ⟨h', h1, h2, h3, h4⟩
  · subst h2 h3
    exact MSt.read_header hk hcb ho h1 hc
  · cases h1
    rw [← Hd.bytes_length, List.drop_left] at h4
    rw [Hd.bytes_length] at h4
    subst h4
    exact ⟨m, MSt.Runs.refl _ _, h2, h3, hc⟩

end

/-! ### One child -/

theorem Kids.has_some {ks : Kids} {id : Nat} {x} (h : ks.entry id = some x) : ks.has id = true := by
  rw [Kids.has_entry, h]; rfl

theorem Kids.has_none {ks : Kids} {id : Nat} (h : ks.entry id = none) : ks.has id = false := by
  rw [Kids.has_entry, h]; rfl

section
variable {cb : Cb} (hcb : cb.Reads) {ks : Kids} {I : ∀ id, (ks.find cb id).E.σ → Prop}
  (hk : ∀ id, (ks.find cb id).E.Good (I id))
include hcb hk

/-- Which parents are announced by a child. -/
def dueOf (w : Wrap) (me : Meta) : Option Meta := if w.start = .tagged then some me else none

theorem step_leaf {w : Wrap} {me : Meta} {mx : Nat} {m : MSt (ks.find cb)} {t : Told} {id sw : Nat} {p : Payload}
    {sized : Bool} {a : Option Nat} {pos : Nat} (hsz : sized = false ↔ me.size = kUnknownElementSize)
    (hw : (Tree.leaf id sw p .nil).WellFormed ks sized a) (hm : m.AtHdr (Hd.at ⟨id, sw, p.data.length⟩ pos))
    (hc : m.Ctx w me mx t.value t.begun) (hfit : m.total + p.data.length ≤ m.cap) {post : Bytes}
    (hpos : pos + (byteWidth id + sw) + p.data.length < 2 ^ 64) :
    ∃ m', MSt.Runs cb w ks.has I (m, t.log) (allAtOnce (p.data ++ post) (pos + (byteWidth id + sw)))
        (m', ((Tree.leaf id sw p .nil).read cb.skips ks (dueOf w me) pos t).log)
        (allAtOnce post (pos + (byteWidth id + sw) + p.data.length)) ∧
      m'.AtDone none ∧ m'.total = m.total + p.data.length ∧
      { m' with childSkip := false }.Ctx w me mx ((Tree.leaf id sw p .nil).read cb.skips ks (dueOf w me) pos t).value
        ((Tree.leaf id sw p .nil).read cb.skips ks (dueOf w me) pos t).begun := by
  obtain ⟨h1, h2, h3, h4, h5, -⟩ := hw
  obtain ⟨k1, k2⟩ := known_ne h3 h4
  have hM : Hd.at ⟨id, sw, p.data.length⟩ pos = ⟨id, byteWidth id + sw, p.data.length, pos⟩ := by
    simp only [Hd.at, Hd.size_known h4, Hd.len]
  rw [hM] at hm
  generalize hMe : (⟨id, byteWidth id + sw, p.data.length, pos⟩ : Meta) = M at hm
  have m1 : M.id = id := by rw [← hMe]
  have m2 : M.size = p.data.length := by rw [← hMe]
  have m3 : M.position + M.headerSize = pos + (byteWidth id + sw) := by rw [← hMe]
  have hkn : ¬(me.size = kUnknownElementSize ∧ ks.has M.id = false) := by
    rintro ⟨u1, u2⟩
    rw [← hsz] at u1
    subst u1
    rw [m1] at u2
    cases he : ks.entry id with
    | none => simp [he] at h5
    | some x => rw [Kids.has_some he] at u2; cases u2
  by_cases hs : (cb t.log (.element M)).2 = true
  · obtain ⟨m', r1, r2, r3, r4⟩ := MSt.skip_child hk hcb (post := post) (pos := pos + (byteWidth id + sw)) hm hc
      (by rw [m2]; exact hfit) (by rw [m2]; exact k2) hkn hs m2
    have hT : (Tree.leaf id sw p .nil).read cb.skips ks (dueOf w me) pos t =
        { t with log := t.log ++ [.element M] } := by
      simp only [Tree.read, Cb.skips, hMe, hs, if_true]
    rw [hT]
    exact ⟨m', r1, r2, by rw [r3, m2], r4⟩
  · have hs' : (cb t.log (.element M)).2 = false := by simpa using hs
    have hfit' : m.total + (if M.size = kUnknownElementSize then 0 else M.size) ≤ m.cap := by
      rw [m2, if_neg k2]; exact hfit
    have h2' : ¬(ks.has M.id = false ∧ M.size = kUnknownElementSize) := fun h => k2 (m2 ▸ h.2)
    have hkid : ks.find cb M.id = ks.find cb id := by rw [m1]
    cases he : ks.entry id with
    | none =>
      have hf : ks.find cb M.id = ⟨unknownEP cb, false, false⟩ := by rw [m1, Kids.find_entry, he]
      have hd : (ks.find cb M.id).E.Does M (mx - m.total) (announced w me t M (ks.find cb M.id).start).log
          (allAtOnce (p.data ++ post) (pos + (byteWidth id + sw)))
          ((announced w me t M false).log ++ (p.read M none).1)
          (allAtOnce post (pos + (byteWidth id + sw) + p.data.length)) p.data.length .nil none := by
        rw [hf]
        exact unknown_does hcb m2 (by omega)
      obtain ⟨m', r1, r2, r3, r4⟩ := MSt.read_child hk hcb hm hc hfit' hkn h2' hs' hd
      rw [hf] at r4
      have hT : (Tree.leaf id sw p .nil).read cb.skips ks (dueOf w me) pos t =
          (announced w me t M false).close false id ((announced w me t M false).log ++ (p.read M none).1) .nil := by
        simp only [Tree.read, Cb.skips, hMe, hs', he]
        rfl
      have hv : (announced w me t M false).value = t.value := by
        rw [announced_eq]; split <;> rfl
      rw [hT]
      refine ⟨m', r1, r2, r3, ⟨r4.me, r4.mx, r4.skip, rfl, ?_, r4.begun, r4.cached⟩⟩
      simp only [Told.close]
      exact r4.value.trans (by simp [hv])
    | some x =>
      obtain ⟨st, co, g⟩ := x
      rw [he] at h5
      cases g with
      | master r ks' => exact h5.elim
      | leaf l =>
        have hf : ks.find cb M.id = ⟨l.parser cb, st, co⟩ := by rw [m1, Kids.find_entry, he]; rfl
        have hd : (ks.find cb M.id).E.Does M (mx - m.total) (announced w me t M (ks.find cb M.id).start).log
            (allAtOnce (p.data ++ post) (pos + (byteWidth id + sw)))
            ((announced w me t M st).log ++ (p.read M (some l)).1)
            (allAtOnce post (pos + (byteWidth id + sw) + p.data.length)) p.data.length (p.read M (some l)).2 none := by
          rw [hf]
          exact Leaf.does hcb h5 m2 (by omega) m3.symm (by omega)
        obtain ⟨m', r1, r2, r3, r4⟩ := MSt.read_child hk hcb hm hc hfit' hkn h2' hs' hd
        rw [hf] at r4
        have hT : (Tree.leaf id sw p .nil).read cb.skips ks (dueOf w me) pos t =
            (announced w me t M st).close co id ((announced w me t M st).log ++ (p.read M (some l)).1)
              (p.read M (some l)).2 := by
          simp only [Tree.read, Cb.skips, hMe, hs', he]
          rfl
        have hv : (announced w me t M st).value = t.value := by
          rw [announced_eq]; split <;> rfl
        rw [hT]
        refine ⟨m', r1, r2, r3, ⟨r4.me, r4.mx, r4.skip, rfl, ?_, r4.begun, r4.cached⟩⟩
        simp only [Told.close]
        exact r4.value.trans (by simp [hv, m1])

/-- What has been told of an element with children once these have been read. -/
def innerOf (cb : Cb) (r : Wrap) (ks' : Kids) (kids : Tree) (M : Meta) (pos : Nat) (L : Log) : Told :=
  kids.read cb.skips ks' (dueOf r M) pos ⟨L ++ (if r.start = .first then [.start M .nil] else []), .nil, false⟩

/-- All calls up to the end of that element. -/
def closing (r : Wrap) (M : Meta) (inner : Told) : Log :=
  inner.log ++ (if r.start = .tagged ∧ inner.begun = false then [.start M inner.value] else []) ++
    (if r.complete then [.complete M inner.value] else [])

theorem step_node {w : Wrap} {me : Meta} {mx : Nat} {m : MSt (ks.find cb)} {t : Told} {id sw : Nat} {known : Bool}
    {kids : Tree} {st co : Bool} {r : Wrap} {ks' : Kids} (he : ks.entry id = some (st, co, .master r ks'))
    {pos : Nat} {M : Meta}
    (hM : M = ⟨id, byteWidth id + sw, if known then kids.bytes.length else 2 ^ 64 - 1, pos⟩)
    (hkn : known = true → kids.bytes.length < 2 ^ 56) (hm : m.AtHdr M)
    (hc : m.Ctx w me mx t.value t.begun) (hfit : m.total + kids.bytes.length ≤ m.cap) {post : Bytes} {c : Option Meta}
    {s' : Src} {k : Nat}
    (hsk : known = true → c = none ∧ s' = allAtOnce post (pos + (byteWidth id + sw) + kids.bytes.length) ∧
      k = kids.bytes.length)
    (hd : (masterEP cb r ks'.has (ks'.find cb)).Does M (mx - m.total) (announced w me t M st).log
      (allAtOnce (kids.bytes ++ post) (pos + (byteWidth id + sw)))
      (closing r M (innerOf cb r ks' kids M (pos + (byteWidth id + sw)) (announced w me t M st).log)) s' k
      (innerOf cb r ks' kids M (pos + (byteWidth id + sw)) (announced w me t M st).log).value c) :
    ∃ m', MSt.Runs cb w ks.has I (m, t.log) (allAtOnce (kids.bytes ++ post) (pos + (byteWidth id + sw)))
        (m', ((Tree.node id sw known kids .nil).read cb.skips ks (dueOf w me) pos t).log) s' ∧
      m'.AtDone c ∧ m'.total = m.total + k ∧
      { m' with childSkip := false }.Ctx w me mx
        ((Tree.node id sw known kids .nil).read cb.skips ks (dueOf w me) pos t).value
        ((Tree.node id sw known kids .nil).read cb.skips ks (dueOf w me) pos t).begun := by
  have m1 : M.id = id := by rw [hM]
  have hhas : ks.has M.id = true := by rw [m1]; exact Kids.has_some he
  have h1 : ¬(me.size = kUnknownElementSize ∧ ks.has M.id = false) := by rw [hhas]; simp
  have h2 : ¬(ks.has M.id = false ∧ M.size = kUnknownElementSize) := by rw [hhas]; simp
  by_cases hs : (cb t.log (.element M)).2 = true
  · -- left out
    obtain ⟨M', e1, e2⟩ := (hcb _ _).2 hs
    cases e1
    have hkn' : known = true := by
      cases known with
      | true => rfl
      | false => rw [hM] at e2; exact absurd rfl e2
    subst hkn'
    have m2 : M.size = kids.bytes.length := by rw [hM]; rfl
    obtain ⟨rfl, rfl, rfl⟩ := hsk rfl
    obtain ⟨m', r1, r2, r3, r4⟩ := MSt.skip_child hk hcb (post := post) (pos := pos + (byteWidth id + sw)) hm hc
      (by rw [m2]; exact hfit) e2 h1 hs m2
    have hT : (Tree.node id sw true kids .nil).read cb.skips ks (dueOf w me) pos t =
        { t with log := t.log ++ [.element M] } := by
      simp only [if_true] at hM
      simp only [Tree.read, Cb.skips, if_true]
      simp only [← hM, hs, Bool.and_self, if_true]
    rw [hT]
    exact ⟨m', r1, r2, by rw [r3, m2], r4⟩
  · have hs' : (cb t.log (.element M)).2 = false := by simpa using hs
    have hfit' : m.total + (if M.size = kUnknownElementSize then 0 else M.size) ≤ m.cap := by
      split
      · omega
      · next hne =>
        cases known with
        | true => rw [show M.size = kids.bytes.length by rw [hM]; rfl]; exact hfit
        | false => rw [hM] at hne; exact absurd rfl hne
    have hf : ks.find cb M.id = ⟨masterEP cb r ks'.has (ks'.find cb), st, co⟩ := by
      rw [m1, Kids.find_entry, he]; rfl
    have hd' : (ks.find cb M.id).E.Does M (mx - m.total) (announced w me t M (ks.find cb M.id).start).log
      (allAtOnce (kids.bytes ++ post) (pos + (byteWidth id + sw)))
      (closing r M (innerOf cb r ks' kids M (pos + (byteWidth id + sw)) (announced w me t M st).log)) s' k
      (innerOf cb r ks' kids M (pos + (byteWidth id + sw)) (announced w me t M st).log).value c := by
      rw [hf]; exact hd
    obtain ⟨m', r1, r2, r3, r4⟩ := MSt.read_child hk hcb hm hc hfit' h1 h2 hs' hd'
    rw [hf] at r4
    have hT : (Tree.node id sw known kids .nil).read cb.skips ks (dueOf w me) pos t =
        (announced w me t M st).close co id
          (closing r M (innerOf cb r ks' kids M (pos + (byteWidth id + sw)) (announced w me t M st).log))
          (innerOf cb r ks' kids M (pos + (byteWidth id + sw)) (announced w me t M st).log).value := by
      simp only [Tree.read, Cb.skips, he]
      simp only [← hM, hs', Bool.and_false]
      simp only [closing, innerOf, dueOf, announced]
      rfl
    have hv : (announced w me t M st).value = t.value := by
      rw [announced_eq]; split <;> rfl
    rw [hT]
    refine ⟨m', r1, r2, r3, ⟨r4.me, r4.mx, r4.skip, rfl, ?_, r4.begun, r4.cached⟩⟩
    simp only [Told.close]
    exact r4.value.trans (by simp [hv, m1])

end

/-! ### Sequences of children -/

/-- The elements `t` are read correctly inside an element of known size. -/
def SizedOk (cb : Cb) (t : Tree) : Prop :=
  ∀ (ks : Kids) (I : ∀ id, (ks.find cb id).E.σ → Prop) (_ : ∀ id, (ks.find cb id).E.Good (I id)) (w : Wrap) (me : Meta)
    (mx : Nat) (m : MSt (ks.find cb)) (told : Told) (pos : Nat) (rest : Bytes),
    t.WellFormed ks true none → me.size ≠ kUnknownElementSize → m.total + t.bytes.length = me.size →
    (t = .nil → m.AtEnd w me told.value told.begun none) →
    (t ≠ .nil → m.AtId ∧ m.Ctx w me mx told.value told.begun) →
    pos + t.bytes.length < 2 ^ 64 →
    ∃ m', MSt.Runs cb w ks.has I (m, told.log) (allAtOnce (t.bytes ++ rest) pos)
        (m', (t.read cb.skips ks (dueOf w me) pos told).log) (allAtOnce rest (pos + t.bytes.length)) ∧
      m'.total = me.size ∧
      m'.AtEnd w me (t.read cb.skips ks (dueOf w me) pos told).value
        (t.read cb.skips ks (dueOf w me) pos told).begun none

/-- The elements `t` are read correctly inside an element of unknown size. -/
def UnsizedOk (cb : Cb) (t : Tree) : Prop :=
  ∀ (ks : Kids) (I : ∀ id, (ks.find cb id).E.σ → Prop) (_ : ∀ id, (ks.find cb id).E.Good (I id)) (w : Wrap) (me : Meta)
    (mx : Nat) (m : MSt (ks.find cb)) (told : Told) (total pos : Nat) (s : Src) (after : Option Hd) (rest : Bytes),
    t.WellFormed ks false (after.map Hd.id) → HdAt after rest → (∀ h ∈ after, ks.entry h.id = none) →
    me.size = kUnknownElementSize → m.Ctx w me mx told.value told.begun →
    m.Ready s total pos (t.first after) (t.bytes ++ rest) → total + (t.bytes ++ rest).length < mx →
    pos + (t.bytes ++ rest).length < 2 ^ 64 →
    ∃ m', MSt.Runs cb w ks.has I (m, told.log) s
        (m', (t.read cb.skips ks (dueOf w me) pos told).log)
        (allAtOnce (rest.drop (hlen after)) (pos + t.bytes.length + hlen after)) ∧
      m'.total = total + t.bytes.length + hlen after ∧
      m'.AtEnd w me (t.read cb.skips ks (dueOf w me) pos told).value
        (t.read cb.skips ks (dueOf w me) pos told).begun (after.map (·.at (pos + t.bytes.length)))

theorem Kids.goods {cb : Cb} (hcb : cb.Proper) (ks : Kids) :
    ∃ I : ∀ id, (ks.find cb id).E.σ → Prop, ∀ id, (ks.find cb id).E.Good (I id) :=
  ⟨fun id => Classical.choose (Kids.good hcb ks id), fun id => Classical.choose_spec (Kids.good hcb ks id)⟩

/-- An element with children, of known size. -/
theorem SizedOk.does {cb : Cb} (hcb : cb.Reads) {kids : Tree} (ih : SizedOk cb kids) {ks' : Kids} {r : Wrap}
    (hw : kids.WellFormed ks' true none) {M : Meta} {mx : Nat} {L : Log} {pos : Nat} {post : Bytes}
    (hM : M.size = kids.bytes.length) (hk : M.size < 2 ^ 56) (hpos : pos + kids.bytes.length < 2 ^ 64) :
    (masterEP cb r ks'.has (ks'.find cb)).Does M mx L (allAtOnce (kids.bytes ++ post) pos)
      (closing r M (innerOf cb r ks' kids M pos L)) (allAtOnce post (pos + kids.bytes.length)) kids.bytes.length
      (innerOf cb r ks' kids M pos L).value none := by
  obtain ⟨I, hI⟩ := Kids.goods hcb.proper ks'
  have hun : M.size ≠ kUnknownElementSize := by unfold kUnknownElementSize; omega
  have h0 : M.size = 0 ↔ kids = .nil := by rw [hM]; exact Tree.bytes_nil hw
  have hinv := MSt.init_inv (kid := ks'.find cb) (I := I) r M mx
  -- up to the first child
  have hstart : ∃ m1 : MSt (ks'.find cb), MSt.Runs cb r ks'.has I (MSt.init r M mx, L)
      (allAtOnce (kids.bytes ++ post) pos) (m1, L ++ (if r.start = .first then [.start M .nil] else []))
      (allAtOnce (kids.bytes ++ post) pos) ∧ m1.total = 0 ∧
      (kids = .nil → m1.AtEnd r M .nil false none) ∧ (kids ≠ .nil → m1.AtId ∧ m1.Ctx r M M.size .nil false) := by
    have hmx : (if M.size = kUnknownElementSize then mx else M.size) = M.size := if_neg hun
    by_cases hf : r.start = .first
    · let m1 : MSt (ks'.find cb) := { me := M, maxSize := M.size, state := if M.size = 0 then .ended else .firstId, started := true, skip := false }
      refine ⟨m1, MSt.Runs.pass hI hcb.proper (k := 0) ?_, rfl, ?_⟩
      · unfold MSt.body MSt.init
        simp only [hf, if_true]
        unfold MSt.callStart
        simp only [hcb.start, hmx]
        simp [Status.completedOk, m1]
      · refine ⟨fun h => ?_, fun h => ?_⟩
        · exact ⟨by simp only [m1]; rw [if_pos (h0.mpr h)], rfl, rfl, rfl, by rw [hf]; simp, rfl⟩
        · exact ⟨⟨by simp only [m1]; rw [if_neg (fun e => h (h0.mp e))], rfl, rfl⟩,
            ⟨rfl, rfl, rfl, rfl, rfl, by rw [hf]; simp, rfl⟩⟩
    · rw [if_neg hf, List.append_nil]
      refine ⟨_, MSt.Runs.refl _ _, rfl, ?_⟩
      refine ⟨fun h => ?_, fun h => ?_⟩
      · exact ⟨by simp only [MSt.init]; rw [if_neg hf, if_pos (h0.mpr h)], rfl, rfl, rfl, fun _ => rfl, rfl⟩
      · exact ⟨⟨by simp only [MSt.init]; rw [if_neg hf, if_neg (fun e => h (h0.mp e))], rfl, rfl⟩,
          ⟨rfl, hmx, rfl, rfl, rfl, fun _ => rfl, rfl⟩⟩
  obtain ⟨m1, r1, t1, s1⟩ := hstart
  obtain ⟨m2, r2, t2, s2⟩ := ih ks' I hI r M M.size m1
    ⟨L ++ (if r.start = .first then [.start M .nil] else []), .nil, false⟩ pos post hw hun (by rw [t1, hM]; omega) s1.1 s1.2 hpos
  obtain ⟨i2, -, f2⟩ := (r1.trans r2) hinv
  obtain ⟨m3, f3, g1, g2, g3⟩ := MSt.finish hI hcb (known := ks'.has)
    (L := (innerOf cb r ks' kids M pos L).log) s2 i2 (allAtOnce post (pos + kids.bytes.length)) (by simp)
  refine ⟨_, m3, rfl, ?_, g1, g2, g3⟩
  refine f2.trans ?_
  have e : (m2, (innerOf cb r ks' kids M pos L).log).1.total = kids.bytes.length := t2.trans hM
  simp only [innerOf] at f3
  rw [f3]
  simp only [addN, t2, hM]
  rfl

/-- An element with children, of unknown size. -/
theorem UnsizedOk.does {cb : Cb} (hcb : cb.Reads) {kids : Tree} (ih : UnsizedOk cb kids) {ks' : Kids} {r : Wrap}
    {after : Option Hd} {rest : Bytes} (hw : kids.WellFormed ks' false (after.map Hd.id)) (ha : HdAt after rest)
    (hn : ∀ h ∈ after, ks'.entry h.id = none) (hf : r.forward = true)
    {M : Meta} {mx : Nat} {L : Log} {pos : Nat} (hM : M.size = kUnknownElementSize)
    (hmx : (kids.bytes ++ rest).length < mx) (hpos : pos + (kids.bytes ++ rest).length < 2 ^ 64) :
    (masterEP cb r ks'.has (ks'.find cb)).Does M mx L (allAtOnce (kids.bytes ++ rest) pos)
      (closing r M (innerOf cb r ks' kids M pos L))
      (allAtOnce (rest.drop (hlen after)) (pos + kids.bytes.length + hlen after)) (kids.bytes.length + hlen after)
      (innerOf cb r ks' kids M pos L).value (after.map (·.at (pos + kids.bytes.length))) := by
  obtain ⟨I, hI⟩ := Kids.goods hcb.proper ks'
  have hinv := MSt.init_inv (kid := ks'.find cb) (I := I) r M mx
  have h0 : M.size ≠ 0 := by rw [hM]; decide
  have hstart : ∃ m1 : MSt (ks'.find cb), MSt.Runs cb r ks'.has I (MSt.init r M mx, L)
      (allAtOnce (kids.bytes ++ rest) pos) (m1, L ++ (if r.start = .first then [.start M .nil] else []))
      (allAtOnce (kids.bytes ++ rest) pos) ∧ m1.total = 0 ∧ m1.AtId ∧ m1.Ctx r M mx .nil false := by
    by_cases hs : r.start = .first
    · let m1 : MSt (ks'.find cb) := { me := M, maxSize := mx, state := .firstId, started := true, skip := false }
      refine ⟨m1, MSt.Runs.pass hI hcb.proper (k := 0) ?_, rfl, ⟨rfl, rfl, rfl⟩,
        ⟨rfl, rfl, rfl, rfl, rfl, by rw [hs]; simp, rfl⟩⟩
      unfold MSt.body MSt.init
      simp only [hs, if_true]
      unfold MSt.callStart
      simp only [hcb.start, hM, if_true]
      rw [← hM, if_neg h0]
      simp [Status.completedOk, m1]
    · rw [if_neg hs, List.append_nil]
      refine ⟨_, MSt.Runs.refl _ _, rfl, ⟨?_, rfl, rfl⟩, ⟨rfl, ?_, rfl, rfl, rfl, fun _ => rfl, rfl⟩⟩
      · simp only [MSt.init]; rw [if_neg hs, if_neg h0]
      · simp only [MSt.init]; rw [if_pos hM]
  obtain ⟨m1, r1, t1, a1, c1⟩ := hstart
  obtain ⟨m2, r2, t2, s2⟩ := ih ks' I hI r M mx m1
    ⟨L ++ (if r.start = .first then [.start M .nil] else []), .nil, false⟩ 0 pos _ after rest hw ha hn hM c1
    (.inl ⟨a1, t1, rfl⟩) (by omega) hpos
  obtain ⟨i2, -, f2⟩ := (r1.trans r2) hinv
  obtain ⟨m3, f3, g1, g2, g3⟩ := MSt.finish hI hcb (known := ks'.has)
    (L := (innerOf cb r ks' kids M pos L).log) s2 i2
    (allAtOnce (rest.drop (hlen after)) (pos + kids.bytes.length + hlen after)) (fun _ => hf)
  refine ⟨_, m3, rfl, ?_, g1, g2, g3⟩
  refine f2.trans ?_
  simp only [innerOf] at f3
  rw [f3]
  simp only [addN, t2, Nat.zero_add]
  rfl

theorem sizedOk_next {cb : Cb} (hcb : cb.Reads) {next : Tree} (ih : SizedOk cb next) {ks : Kids}
    {I : ∀ id, (ks.find cb id).E.σ → Prop} (hk : ∀ id, (ks.find cb id).E.Good (I id)) {w : Wrap} {me : Meta}
    {mx : Nat} {m : MSt (ks.find cb)} {t : Told} {pos : Nat} {rest : Bytes} (hw : next.WellFormed ks true none)
    (hme : me.size ≠ kUnknownElementSize) (ht : m.total + next.bytes.length = me.size) (hd : m.AtDone none)
    (hc : { m with childSkip := false }.Ctx w me mx t.value t.begun) (hpos : pos + next.bytes.length < 2 ^ 64) :
    ∃ m', MSt.Runs cb w ks.has I (m, t.log) (allAtOnce (next.bytes ++ rest) pos)
        (m', (next.read cb.skips ks (dueOf w me) pos t).log) (allAtOnce rest (pos + next.bytes.length)) ∧
      m'.total = me.size ∧
      m'.AtEnd w me (next.read cb.skips ks (dueOf w me) pos t).value
        (next.read cb.skips ks (dueOf w me) pos t).begun none := by
  have hcap : m.cap = me.size := by
    have : m.me = me := hc.me
    unfold MSt.cap
    rw [this, if_neg hme]
  obtain ⟨m1, r1, t1, c1⟩ := MSt.next_child hk hcb.proper (known := ks.has) (L := t.log) hd hc (by omega)
    (allAtOnce (next.bytes ++ rest) pos)
  have h0 := Tree.bytes_nil hw
  obtain ⟨m2, r2, t2, e2⟩ := ih ks I hk w me mx m1 t pos rest hw hme (by omega) (fun h => by
      have := h0.mpr h
      rw [if_pos (by omega)] at c1
      exact ⟨c1.1, c1.2.me, c1.2.skip, c1.2.value, c1.2.begun, by have : m1.cached = false := c1.2.cached; simp [this]⟩)
    (fun h => by
      have : ¬ next.bytes.length = 0 := fun e => h (h0.mp e)
      rw [if_neg (by omega)] at c1
      exact ⟨c1.2, c1.1⟩) hpos
  exact ⟨m2, r1.trans r2, t2, e2⟩

theorem unsizedOk_next {cb : Cb} (hcb : cb.Reads) {next : Tree} (ih : UnsizedOk cb next) {ks : Kids}
    {I : ∀ id, (ks.find cb id).E.σ → Prop} (hk : ∀ id, (ks.find cb id).E.Good (I id)) {w : Wrap} {me : Meta}
    {mx : Nat} {m : MSt (ks.find cb)} {t : Told} {total pos : Nat} {after : Option Hd} {rest : Bytes} {c : Option Hd}
    {s : Src} (hw : next.WellFormed ks false (after.map Hd.id)) (ha : HdAt after rest)
    (hn : ∀ h ∈ after, ks.entry h.id = none) (hme : me.size = kUnknownElementSize)
    (hcs : c = none ∨ c = next.first after) (ht : m.total = total + hlen c)
    (hs : s = allAtOnce ((next.bytes ++ rest).drop (hlen c)) (pos + hlen c))
    (hd : m.AtDone (c.map (·.at pos)))
    (hc : { m with childSkip := false }.Ctx w me mx t.value t.begun)
    (hmx : total + (next.bytes ++ rest).length < mx) (hpos : pos + (next.bytes ++ rest).length < 2 ^ 64) :
    ∃ m', MSt.Runs cb w ks.has I (m, t.log) s
        (m', (next.read cb.skips ks (dueOf w me) pos t).log)
        (allAtOnce (rest.drop (hlen after)) (pos + next.bytes.length + hlen after)) ∧
      m'.total = total + next.bytes.length + hlen after ∧
      m'.AtEnd w me (next.read cb.skips ks (dueOf w me) pos t).value
        (next.read cb.skips ks (dueOf w me) pos t).begun (after.map (·.at (pos + next.bytes.length))) := by
  have hcap : m.cap = mx := by
    have h1 : m.me = me := hc.me
    have h2 : m.maxSize = mx := hc.mx
    unfold MSt.cap
    rw [h1, if_pos hme, h2]
  have hfirst := Tree.first_at hw ha
  have hlt : m.total < m.cap := by
    rw [hcap, ht]
    rcases hcs with rfl | rfl
    · simp only [hlen]; omega
    · cases hf : next.first after with
      | none => simp only [hlen]; omega
      | some h =>
        rw [hf] at hfirst
        obtain ⟨-, r, hr, -⟩ := hfirst
        have : (next.bytes ++ rest).length = h.len + r.length := by
          rw [hr, List.length_append, Hd.bytes_length]
        simp only [hlen]; omega
  obtain ⟨m1, r1, t1, c1⟩ := MSt.next_child hk hcb.proper (known := ks.has) (L := t.log) hd hc (by omega) s
  rw [if_neg (by omega)] at c1
  have hready : m1.Ready s total pos (next.first after) (next.bytes ++ rest) := by
    cases c with
    | none =>
      left
      exact ⟨c1.2, by rw [t1, ht]; rfl, by rw [hs]; rfl⟩
    | some h =>
      right
      refine ⟨h, ?_, c1.2, by rw [t1, ht]; rfl, by rw [hs]; rfl⟩
      rcases hcs with hx | hx
      · cases hx
      · exact hx.symm
  obtain ⟨m2, r2, t2, e2⟩ := ih ks I hk w me mx m1 t total pos s after rest hw ha hn hme c1.1 hready hmx hpos
  exact ⟨m2, r1.trans r2, t2, e2⟩

theorem sizedOk_and_unsizedOk {cb : Cb} (hcb : cb.Reads) (t : Tree) : SizedOk cb t ∧ UnsizedOk cb t := by
  induction t with
  | nil =>
    refine ⟨?_, ?_⟩
    · intro ks I hk w me mx m told pos rest hw hme ht h1 h2 hpos
      exact ⟨m, MSt.Runs.refl _ _, ht, h1 rfl⟩
    · intro ks I hk w me mx m told total pos s after rest hw ha hn hme hc hr hmx hpos
      have hcap : m.cap = mx := by
        unfold MSt.cap
        rw [hc.me, if_pos hme, hc.mx]
      cases after with
      | none =>
        have : rest = [] := ha
        subst this
        rcases hr with ⟨a1, a2, a3⟩ | ⟨h, hx, -⟩
        · subst a3
          obtain ⟨m1, r1, t1, e1, c1⟩ := MSt.end_eof hk hcb.proper (known := ks.has) (L := told.log) a1 hc hme pos
          exact ⟨m1, r1, by rw [t1, a2]; rfl, e1, c1.me, c1.skip, c1.value, c1.begun, by rw [c1.cached]; rfl⟩
        · cases hx
      | some h =>
        obtain ⟨ho, r, hr', hz⟩ := ha
        subst hr'
        obtain ⟨m1, r1, a1, t1, c1⟩ := MSt.Ready.header hk hcb.proper (known := ks.has) (L := told.log) ho hr hc
        have hcap1 : m1.cap = mx := by
          unfold MSt.cap
          rw [c1.me, if_pos hme, c1.mx]
        have hl : (Tree.nil.bytes ++ (h.bytes ++ r)).length = h.len + r.length := by
          simp [Tree.bytes, Hd.bytes_length]
        obtain ⟨m2, r2, t2, e1, e2, e3, c2⟩ := MSt.end_header hk hcb.proper (known := ks.has) (L := told.log) a1 c1 hme
          (by
            rw [hcap1, t1]
            have hsz : (h.at pos).size = h.size := rfl
            by_cases hne : (h.at pos).size = kUnknownElementSize
            · rw [if_pos hne]; omega
            · rw [if_neg hne]; have := hz hne; omega)
          (Kids.has_none (hn h rfl)) (allAtOnce r (pos + h.len))
        have hdrop : (h.bytes ++ r).drop h.len = r := by rw [← Hd.bytes_length, List.drop_left]
        refine ⟨m2, ?_, by rw [t2, t1]; rfl, e1, c2.me, c2.skip, c2.value, c2.begun, by rw [e2, e3]; rfl⟩
        simp only [hlen, hdrop]
        exact r1.trans r2
  | leaf id sw p next ih =>
    refine ⟨?_, ?_⟩
    · intro ks I hk w me mx m told pos rest hw hme ht h1 h2 hpos
      obtain ⟨hid, hc⟩ := h2 (by simp)
      have hlen' : (Tree.leaf id sw p next).bytes.length = byteWidth id + sw + p.data.length + next.bytes.length := by
        simp [Tree.bytes, header, Par.vint_length]; omega
      have hb : (Tree.leaf id sw p next).bytes ++ rest =
          (Hd.mk id sw p.data.length).bytes ++ (p.data ++ (next.bytes ++ rest)) := by
        simp [Tree.bytes, Hd.bytes]
      have ho : (Hd.mk id sw p.data.length).Ok := ⟨hw.1, hw.2.1, hw.2.2.1, by have := hw.2.2.2.1; simp only; omega⟩
      obtain ⟨m1, r1, a1, t1, c1⟩ := MSt.read_header hk hcb.proper (known := ks.has) (L := told.log) ho
        (post := p.data ++ (next.bytes ++ rest)) (pos := pos) hid hc
      have hhl : (Hd.mk id sw p.data.length).len = byteWidth id + sw := rfl
      rw [hhl] at r1 t1
      have hcap1 : m1.cap = me.size := by
        unfold MSt.cap
        rw [c1.me, if_neg hme]
      obtain ⟨m2, r2, d2, t2, c2⟩ := step_leaf hcb hk (sized := true) (a := none) (post := next.bytes ++ rest)
        (by simp [hme]) ⟨hw.1, hw.2.1, hw.2.2.1, hw.2.2.2.1, hw.2.2.2.2.1, trivial⟩ a1 c1 (by omega) (by omega)
      obtain ⟨m3, r3, t3, e3⟩ := sizedOk_next hcb ih.1 hk (rest := rest) (pos := pos + (byteWidth id + sw) + p.data.length)
        hw.2.2.2.2.2 hme (by omega) d2 c2 (by omega)
      rw [hb, Tree.read_leaf]
      have hp : pos + (byteWidth id + sw) + p.data.length + next.bytes.length =
          pos + (Tree.leaf id sw p next).bytes.length := by omega
      rw [hp] at r3
      exact ⟨m3, (r1.trans r2).trans r3, t3, e3⟩
    · intro ks I hk w me mx m told total pos s after rest hw ha hn hme hc hr hmx hpos
      have hlen' : (Tree.leaf id sw p next).bytes.length = byteWidth id + sw + p.data.length + next.bytes.length := by
        simp [Tree.bytes, header, Par.vint_length]; omega
      have hb : (Tree.leaf id sw p next).bytes ++ rest =
          (Hd.mk id sw p.data.length).bytes ++ (p.data ++ (next.bytes ++ rest)) := by
        simp [Tree.bytes, Hd.bytes]
      have ho : (Hd.mk id sw p.data.length).Ok := ⟨hw.1, hw.2.1, hw.2.2.1, by have := hw.2.2.2.1; simp only; omega⟩
      rw [hb] at hr
      rw [List.length_append, hlen'] at hmx hpos
      obtain ⟨m1, r1, a1, t1, c1⟩ := MSt.Ready.header hk hcb.proper (known := ks.has) (L := told.log) ho hr hc
      have hhl : (Hd.mk id sw p.data.length).len = byteWidth id + sw := rfl
      rw [hhl] at r1 t1
      have hcap1 : m1.cap = mx := by
        unfold MSt.cap
        rw [c1.me, if_pos hme, c1.mx]
      obtain ⟨m2, r2, d2, t2, c2⟩ := step_leaf hcb hk (sized := false) (a := after.map Hd.id) (post := next.bytes ++ rest)
        (by simp [hme]) ⟨hw.1, hw.2.1, hw.2.2.1, hw.2.2.2.1, hw.2.2.2.2.1, trivial⟩ a1 c1 (by omega) (by omega)
      obtain ⟨m3, r3, t3, e3⟩ := unsizedOk_next hcb ih.2 hk (rest := rest) (pos := pos + (byteWidth id + sw) + p.data.length)
        (total := total + (byteWidth id + sw) + p.data.length) (c := none)
        hw.2.2.2.2.2 ha hn hme (.inl rfl) (by rw [t2, t1]; rfl) rfl d2 c2 (by rw [List.length_append]; omega)
        (by rw [List.length_append]; omega)
      rw [Tree.read_leaf]
      have hp : pos + (byteWidth id + sw) + p.data.length + next.bytes.length =
          pos + (Tree.leaf id sw p next).bytes.length := by omega
      rw [hp] at r3 e3
      exact ⟨m3, (r1.trans r2).trans r3, by rw [t3, hlen']; omega, e3⟩
  | node id sw known kids next ihk ihn =>
    have hnode : ∀ {ks : Kids} {sized : Bool} {a : Option Nat}, (Tree.node id sw known kids next).WellFormed ks sized a →
        ∃ st co r ks', ks.entry id = some (st, co, .master r ks') ∧
          (if known then kids.bytes.length + 1 < 2 ^ (7 * sw) ∧ kids.WellFormed ks' true none
          else sized = false ∧ r.forward = true ∧ (∀ i ∈ next.follow a, ks'.entry i = none) ∧
            kids.WellFormed ks' false (next.follow a)) := by
      intro ks sized a hw
      have h := hw.2.2.2.1
      cases he : ks.entry id with
      | none => rw [he] at h; exact h.elim
      | some x =>
        obtain ⟨st, co, g⟩ := x
        cases g with
        | leaf l => rw [he] at h; exact h.elim
        | master r ks' => rw [he] at h; exact ⟨st, co, r, ks', rfl, h⟩
    have hlen' : (Tree.node id sw known kids next).bytes.length = byteWidth id + sw + kids.bytes.length + next.bytes.length := by
      simp [Tree.bytes, header, Par.vint_length]; omega
    have hb : ∀ rest, (Tree.node id sw known kids next).bytes ++ rest =
        (Hd.mk id sw (if known then kids.bytes.length else 2 ^ (7 * sw) - 1)).bytes ++ (kids.bytes ++ (next.bytes ++ rest)) := by
      intro rest
      simp [Tree.bytes, Hd.bytes]
    generalize hv : (if known then kids.bytes.length else 2 ^ (7 * sw) - 1) = v at hb
    have hhl : (Hd.mk id sw v).len = byteWidth id + sw := rfl
    refine ⟨?_, ?_⟩
    · intro ks I hk w me mx m told pos rest hw hme ht h1 h2 hpos
      obtain ⟨hid, hc⟩ := h2 (by simp)
      obtain ⟨st, co, r, ks', he, hkw⟩ := hnode hw
      cases known with
      | false => cases hkw.1
      | true =>
        simp only [if_true] at hkw hv
        subst hv
        obtain ⟨hz, hkw⟩ := hkw
        obtain ⟨k1, k2⟩ := known_ne hw.2.2.1 hz
        have ho : (Hd.mk id sw kids.bytes.length).Ok := ⟨hw.1, hw.2.1, hw.2.2.1, by simp only; omega⟩
        obtain ⟨m1, r1, a1, t1, c1⟩ := MSt.read_header hk hcb.proper (known := ks.has) (L := told.log) ho
          (post := kids.bytes ++ (next.bytes ++ rest)) (pos := pos) hid hc
        rw [hhl] at r1 t1
        have hcap1 : m1.cap = me.size := by
          unfold MSt.cap
          rw [c1.me, if_neg hme]
        have hM : Hd.at ⟨id, sw, kids.bytes.length⟩ pos =
            ⟨id, byteWidth id + sw, if true then kids.bytes.length else 2 ^ 64 - 1, pos⟩ := by
          simp only [Hd.at, Hd.size_known hz, Hd.len, if_true]
        have hMs : (Hd.at ⟨id, sw, kids.bytes.length⟩ pos).size = kids.bytes.length := by rw [hM]; rfl
        obtain ⟨m2, r2, d2, t2, c2⟩ := step_node hcb hk he hM (fun _ => k1) a1 c1 (by omega)
          (post := next.bytes ++ rest) (fun _ => ⟨rfl, rfl, rfl⟩)
          (ihk.1.does hcb hkw hMs (by omega) (by omega))
        obtain ⟨m3, r3, t3, e3⟩ := sizedOk_next hcb ihn.1 hk (rest := rest)
          (pos := pos + (byteWidth id + sw) + kids.bytes.length)
          hw.2.2.2.2 hme (by omega) d2 c2 (by omega)
        rw [hb, Tree.read_node _ _ _ _ _ _ _ _ _ _ he]
        have hp : pos + (byteWidth id + sw) + kids.bytes.length + next.bytes.length =
            pos + (Tree.node id sw true kids next).bytes.length := by omega
        rw [hp] at r3
        exact ⟨m3, (r1.trans r2).trans r3, t3, e3⟩
    · intro ks I hk w me mx m told total pos s after rest hw ha hn hme hc hr hmx hpos
      obtain ⟨st, co, r, ks', he, hkw⟩ := hnode hw
      have hfirst : (Tree.node id sw known kids next).first after = some ⟨id, sw, v⟩ := by
        simp only [Tree.first, hv]
      rw [hb, hfirst] at hr
      rw [List.length_append, hlen'] at hmx hpos
      have hvlt : v < 2 ^ (7 * sw) := by
        rw [← hv]
        split
        · next hx => rw [if_pos hx] at hkw; have := hkw.1; omega
        · have := Nat.two_pow_pos (7 * sw); omega
      have ho : (Hd.mk id sw v).Ok := ⟨hw.1, hw.2.1, hw.2.2.1, hvlt⟩
      obtain ⟨m1, r1, a1, t1, c1⟩ := MSt.Ready.header hk hcb.proper (known := ks.has) (L := told.log) ho hr hc
      rw [hhl] at r1 t1
      have hcap1 : m1.cap = mx := by
        unfold MSt.cap
        rw [c1.me, if_pos hme, c1.mx]
      have hp : pos + (byteWidth id + sw) + kids.bytes.length + next.bytes.length =
          pos + (Tree.node id sw known kids next).bytes.length := by omega
      rw [Tree.read_node _ _ _ _ _ _ _ _ _ _ he]
      cases known with
      | true =>
        simp only [if_true] at hkw hv
        subst hv
        obtain ⟨hz, hkw⟩ := hkw
        obtain ⟨k1, k2⟩ := known_ne hw.2.2.1 hz
        have hM : Hd.at ⟨id, sw, kids.bytes.length⟩ pos =
            ⟨id, byteWidth id + sw, if true then kids.bytes.length else 2 ^ 64 - 1, pos⟩ := by
          simp only [Hd.at, Hd.size_known hz, Hd.len, if_true]
        have hMs : (Hd.at ⟨id, sw, kids.bytes.length⟩ pos).size = kids.bytes.length := by rw [hM]; rfl
        obtain ⟨m2, r2, d2, t2, c2⟩ := step_node hcb hk he hM (fun _ => k1) a1 c1 (by omega)
          (post := next.bytes ++ rest) (fun _ => ⟨rfl, rfl, rfl⟩)
          (ihk.1.does hcb hkw hMs (by omega) (by omega))
        obtain ⟨m3, r3, t3, e3⟩ := unsizedOk_next hcb ihn.2 hk (rest := rest)
          (pos := pos + (byteWidth id + sw) + kids.bytes.length)
          (total := total + (byteWidth id + sw) + kids.bytes.length) (c := none)
          hw.2.2.2.2 ha hn hme (.inl rfl) (by rw [t2, t1]; rfl) rfl d2 c2 (by rw [List.length_append]; omega)
          (by rw [List.length_append]; omega)
        rw [hp] at r3 e3
        exact ⟨m3, (r1.trans r2).trans r3, by rw [t3, hlen']; omega, e3⟩
      | false =>
        simp only [Bool.false_eq_true, if_false] at hkw hv
        subst hv
        obtain ⟨-, hfw, hent, hkw⟩ := hkw
        rw [Tree.follow_first] at hent hkw
        have hM : Hd.at ⟨id, sw, 2 ^ (7 * sw) - 1⟩ pos =
            ⟨id, byteWidth id + sw, if false then kids.bytes.length else 2 ^ 64 - 1, pos⟩ := by
          simp only [Hd.at, Hd.size_unknown, Hd.len]
          rfl
        have hMs : (Hd.at ⟨id, sw, 2 ^ (7 * sw) - 1⟩ pos).size = kUnknownElementSize := by rw [hM]; rfl
        have hnext := Tree.first_at (after := after) (rest := rest) hw.2.2.2.2 ha
        obtain ⟨m2, r2, d2, t2, c2⟩ := step_node hcb hk he hM (fun h => by cases h) a1 c1 (by omega)
          (post := next.bytes ++ rest) (fun h => by cases h)
          (ihk.2.does hcb (after := next.first after) hkw hnext
            (fun h hh => hent h.id (by rw [Option.mem_def] at hh; rw [hh]; rfl)) hfw hMs
            (by rw [List.length_append, List.length_append]; omega)
            (by rw [List.length_append, List.length_append]; omega))
        obtain ⟨m3, r3, t3, e3⟩ := unsizedOk_next hcb ihn.2 hk (rest := rest)
          (pos := pos + (byteWidth id + sw) + kids.bytes.length)
          (total := total + (byteWidth id + sw) + kids.bytes.length) (c := next.first after)
          hw.2.2.2.2 ha hn hme (.inr rfl) (by rw [t2, t1]; omega) rfl d2 c2 (by rw [List.length_append]; omega)
          (by rw [List.length_append]; omega)
        rw [hp] at r3 e3
        exact ⟨m3, (r1.trans r2).trans r3, by rw [t3, hlen']; omega, e3⟩

end Verif.Web

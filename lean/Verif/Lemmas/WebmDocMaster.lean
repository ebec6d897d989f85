/-
Master parsers run over well-formed sequences of elements, all data available.
-/
import Verif.Lemmas.WebmDocLeaf

namespace Verif.Web
open Verif Verif.Spec

theorem Kids.find_entry (cb : Cb) (ks : Kids) (id : Nat) :
    ks.find cb id = match ks.entry id with
      | some (st, co, g) => ⟨g.parser cb, st, co⟩
      | none => ⟨unknownEP cb, false, false⟩ := by
  match ks with
  | .nil =>
    unfold Kids.find Kids.entry
    split <;> rfl
  | .cons i st co g rest =>
    unfold Kids.find Kids.entry
    split
    · rfl
    · exact rest.find_entry cb id

theorem Kids.has_entry (ks : Kids) (id : Nat) : ks.has id = (ks.entry id).isSome := by
  match ks with
  | .nil =>
    unfold Kids.has Kids.entry
    by_cases h : id = kVoid <;> simp [h]
  | .cons i st co g rest =>
    unfold Kids.has Kids.entry
    by_cases h : id = i
    · simp [h]
    · simp [h, rest.has_entry id]

/-! ### Headers -/

/-- An element header: ID, width of the size field, its value. -/
structure Hd where
  id : Nat
  w : Nat
  v : Nat

/-- The header is well formed. -/
structure Hd.Ok (h : Hd) : Prop where
  id : IsId (byteWidth h.id) h.id
  w1 : 1 ≤ h.w
  w8 : h.w ≤ 8
  v : h.v < 2 ^ (7 * h.w)

def Hd.bytes (h : Hd) : Bytes := header h.id h.w h.v
def Hd.len (h : Hd) : Nat := byteWidth h.id + h.w
def Hd.size (h : Hd) : Nat := if h.v + 1 = 2 ^ (7 * h.w) then kUnknownElementSize else h.v
def Hd.at (h : Hd) (pos : Nat) : Meta := ⟨h.id, h.len, h.size, pos⟩

theorem Hd.bytes_length (h : Hd) : h.bytes.length = h.len := by
  simp [Hd.bytes, Hd.len, header, Par.vint_length]

theorem Hd.len_pos {h : Hd} (ho : h.Ok) : 0 < h.len := by
  have := ho.w1
  unfold Hd.len
  omega

theorem Hd.feed_size {h : Hd} (ho : h.Ok) (post : Bytes) (pos : Nat) :
    ∃ z, SizeP.feed {} (allAtOnce (vint h.w h.v ++ post) pos) =
      (.okCompleted, z, allAtOnce post (pos + h.w), h.w) ∧ SizeP.size z = h.size := by
  unfold Hd.size
  by_cases hv : h.v + 1 = 2 ^ (7 * h.w)
  · rw [if_pos hv, show h.v = 2 ^ (7 * h.w) - 1 by omega]
    exact SizeP.feed_unknown ho.w1 ho.w8
  · rw [if_neg hv]
    exact SizeP.feed_vint ho.w1 ho.w8 (by have := ho.v; omega)

section
variable {kid : Nat → Kid} {I : ∀ id, (kid id).E.σ → Prop}

/-- Passes of a master parser's loop. -/
def MSt.Runs (cb : Cb) (w : Wrap) (known : Nat → Bool) (I : ∀ id, (kid id).E.σ → Prop)
    (x : MSt kid × Log) (s : Src) (x' : MSt kid × Log) (s' : Src) : Prop :=
  x.1.Inv I → x'.1.Inv I ∧ x.1.total ≤ x'.1.total ∧
    MSt.feed cb w known false x s = addN (x'.1.total - x.1.total) (MSt.feed cb w known false x' s')

theorem MSt.Runs.refl {cb : Cb} {w : Wrap} {known : Nat → Bool} (x : MSt kid × Log) (s : Src) :
    MSt.Runs cb w known I x s x s :=
  fun h => ⟨h, Nat.le_refl _, by simp⟩

theorem MSt.Runs.trans {cb : Cb} {w : Wrap} {known : Nat → Bool} {x x' x'' : MSt kid × Log} {s s' s'' : Src}
    (h : MSt.Runs cb w known I x s x' s') (g : MSt.Runs cb w known I x' s' x'' s'') :
    MSt.Runs cb w known I x s x'' s'' := by
  intro hi
  obtain ⟨h1, h2, h3⟩ := h hi
  obtain ⟨g1, g2, g3⟩ := g h1
  exact ⟨g1, Nat.le_trans h2 g2, by rw [h3, g3, addN_addN]; congr 1; omega⟩

theorem MSt.Runs.pass (hk : ∀ id, (kid id).E.Good (I id)) {cb : Cb} (hcb : cb.Proper) {w : Wrap}
    {known : Nat → Bool} {x x' : MSt kid × Log} {s s' : Src} {k : Nat}
    (h : MSt.body cb w known false x s = (none, x', s', k)) : MSt.Runs cb w known I x s x' s' := by
  intro hi
  obtain ⟨-, b2, -, -, -, b6⟩ := MSt.body_facts hk hcb w known false hi h
  refine ⟨(b6 rfl).1, by omega, ?_⟩
  rw [show x'.1.total - x.1.total = k by omega]
  exact loopFeed_cont h (b6 rfl).2

/-- What stays the same, or is known, of a master parser while it reads its children. -/
structure MSt.Ctx (w : Wrap) (me : Meta) (mx : Nat) (v : Val) (begun : Bool) (m : MSt kid) : Prop where
  me : m.me = me
  mx : m.maxSize = mx
  skip : m.skip = false
  childSkip : m.childSkip = false
  value : m.value = v
  begun : w.start = .tagged → m.started = begun
  cached : m.cached = false

/-- About to read the ID of the next child. -/
structure MSt.AtId (m : MSt kid) : Prop where
  state : m.state = .firstId
  idp : m.idp = {}
  szp : m.szp = {}

/-- The header of the next child has been read. -/
structure MSt.AtHdr (m : MSt kid) (h : Meta) : Prop where
  state : m.state = .validating
  cm : m.cm = h

theorem MSt.read_header (hk : ∀ id, (kid id).E.Good (I id)) {cb : Cb} (hcb : cb.Proper) {w : Wrap}
    {known : Nat → Bool} {m : MSt kid} {L : Log} {h : Hd} (ho : h.Ok) {post : Bytes} {pos : Nat} (hm : m.AtId)
    {me : Meta} {mx : Nat} {v : Val} {b : Bool} (hc : m.Ctx w me mx v b) :
    ∃ m', MSt.Runs cb w known I (m, L) (allAtOnce (h.bytes ++ post) pos) (m', L) (allAtOnce post (pos + h.len)) ∧
      m'.AtHdr (h.at pos) ∧ m'.total = m.total + h.len ∧ m'.Ctx w me mx v b := by
  obtain ⟨z, hz1, hz2⟩ := Hd.feed_size ho post (pos + byteWidth h.id)
  let m1 : MSt kid := { m with
    idp := { remaining := some 0, id := h.id }, total := m.total + byteWidth h.id
    cm := { m.cm with position := pos, headerSize := byteWidth h.id }, state := .size }
  let m2 : MSt kid := { m1 with
    szp := z, total := m.total + byteWidth h.id + h.w
    cm := ⟨h.id, byteWidth h.id + h.w, h.size, pos⟩, state := .validating }
  have e1 : MSt.body cb w known false (m, L) (allAtOnce (h.bytes ++ post) pos) =
      (none, (m1, L), allAtOnce (vint h.w h.v ++ post) (pos + byteWidth h.id), byteWidth h.id) := by
    unfold MSt.body
    simp only [hm.state]
    unfold MSt.firstId
    simp only [hm.idp, Hd.bytes, header, List.append_assoc, IdP.feed_id ho.id]
    rfl
  have e2 : MSt.body cb w known false (m1, L) (allAtOnce (vint h.w h.v ++ post) (pos + byteWidth h.id)) =
      (none, (m2, L), allAtOnce post (pos + byteWidth h.id + h.w), h.w) := by
    unfold MSt.body
    simp only [m1]
    unfold MSt.readSize
    simp only [hm.szp, hz1, hz2]
    rfl
  refine ⟨m2, ?_, ⟨rfl, rfl⟩, ?_, ⟨hc.me, hc.mx, hc.skip, hc.childSkip, hc.value, hc.begun, hc.cached⟩⟩
  · have := (MSt.Runs.pass hk hcb e1).trans (MSt.Runs.pass hk hcb e2)
    rwa [Nat.add_assoc] at this
  · simp only [m2, Hd.len]; omega

/-- Whether the next pass makes the parent begin. -/
def startsNow (w : Wrap) (begun starts : Bool) : Bool := w.start == .tagged && !begun && starts

/-- A child has been read completely. -/
structure MSt.AtDone (m : MSt kid) (c : Option Meta) : Prop where
  state : m.state = .childDone
  cached : m.child.cached = c

theorem Cb.Reads.start {cb : Cb} (h : cb.Reads) (L : Log) (m : Meta) (v : Val) :
    cb.call false L (.start m v) = (.okCompleted, false, L ++ [.start m v]) := by
  have hb : (cb L (.start m v)).2 = false := by
    cases hx : (cb L (.start m v)).2 with
    | false => rfl
    | true => obtain ⟨m', hm, -⟩ := (h _ _).2 hx; cases hm
  simp only [Cb.call, (h _ _).1, hb]
  rfl

theorem Cb.Reads.complete {cb : Cb} (h : cb.Reads) (L : Log) (e : Ev) :
    cb.call false L e = (.okCompleted, (cb L e).2, L ++ [e]) := by
  simp only [Cb.call, (h _ _).1]
  rfl

/-- The log and the parent's state after a child has been announced. -/
def announced (w : Wrap) (me : Meta) (t : Told) (M : Meta) (starts : Bool) : Told :=
  t.announce (if w.start = .tagged then some me else none) M starts

theorem announced_eq (w : Wrap) (me : Meta) (t : Told) (M : Meta) (starts : Bool) :
    announced w me t M starts = if startsNow w t.begun starts then
      { t with log := t.log ++ [.element M, .start me t.value], begun := true }
    else { t with log := t.log ++ [.element M] } := by
  unfold announced Told.announce startsNow
  cases hw : w.start <;> simp
  cases starts <;> cases t.begun <;> simp

/-- A child of known kind is announced and read. -/
theorem MSt.read_child (hk : ∀ id, (kid id).E.Good (I id)) {cb : Cb} (hcb : cb.Reads) {w : Wrap}
    {known : Nat → Bool} {m : MSt kid} {t : Told} {M : Meta} {me : Meta} {mx : Nat} (hm : m.AtHdr M)
    (hc : m.Ctx w me mx t.value t.begun) (hfit : m.total + (if M.size = kUnknownElementSize then 0 else M.size) ≤ m.cap)
    (h1 : ¬(me.size = kUnknownElementSize ∧ known M.id = false))
    (h2 : ¬(known M.id = false ∧ M.size = kUnknownElementSize))
    (hns : (cb t.log (.element M)).2 = false) {s s' : Src} {L' : Log} {k : Nat} {v : Val} {c : Option Meta}
    (hd : (kid M.id).E.Does M (mx - m.total) (announced w me t M (kid M.id).start).log s L' s' k v c) :
    ∃ m', MSt.Runs cb w known I (m, t.log) s (m', L') s' ∧ m'.AtDone c ∧ m'.total = m.total + k ∧
      m'.Ctx w me mx (if (kid M.id).consume then t.value.push M.id v else t.value)
        (announced w me t M (kid M.id).start).begun := by
  obtain ⟨p0, p', d1, d2, d3, d4, d5⟩ := hd
  obtain ⟨me, mx, st0, tot, idp, szp, M, ch, cs, sk, sta, val, ca⟩ := m
  obtain ⟨c1, c2, c3, c4, c5, c6, c7⟩ := hc
  obtain ⟨g1, g2⟩ := hm
  simp only at c1 c2 c3 c4 c5 c6 c7 g1 g2 hfit d1 d2
  subst c1 c2 c3 c4 c5 c7 g1 g2
  let m : MSt kid := { me := me, maxSize := mx, state := .validating, total := tot, idp := idp, szp := szp, cm := M, child := ch, childSkip := false, skip := false, started := sta, value := t.value, cached := false }
  let m1 : MSt kid := { m with state := .action }
  let m2 : MSt kid := { m1 with childSkip := false, state := .initing }
  let m3 : MSt kid := { m2 with child := .kid M.id p0, state := .body }
  have e1 : MSt.body cb w known false (m, t.log) s = (none, (m1, t.log), s, 0) := by
    unfold MSt.body
    simp only [m]
    unfold MSt.validate
    simp only
    rw [if_neg (by omega), if_neg h1, if_neg h2]
  have e2 : MSt.body cb w known false (m1, t.log) s = (none, (m2, t.log ++ [.element M]), s, 0) := by
    unfold MSt.body
    simp only [m1, m, Bool.or_self, hcb.complete, hns]
    rfl
  have e3 : MSt.body cb w known false (m2, t.log ++ [.element M]) s = (none, (m3, t.log ++ [.element M]), s, 0) := by
    unfold MSt.body
    simp only [m2, m1, m]
    unfold MSt.initChild
    simp only [d1]
    rfl
  have r3 := ((MSt.Runs.pass hk hcb.proper e1).trans (MSt.Runs.pass hk hcb.proper e2)).trans
    (MSt.Runs.pass (I := I) hk hcb.proper e3)
  -- the `…Begin` call of the parent
  have r4 : ∃ m4 : MSt kid, MSt.Runs cb w known I (m3, t.log ++ [.element M]) s
      (m4, (announced w me t M (kid M.id).start).log) s ∧ m4.state = .body ∧ m4.child = .kid M.id p0 ∧
      m4.total = m.total ∧ m4.needStart w = false ∧
      m4.Ctx w me mx t.value (announced w me t M (kid M.id).start).begun := by
    have hn : m3.needStart w = startsNow w t.begun (kid M.id).start := by
      unfold MSt.needStart startsNow
      cases hw : w.start with
      | tagged => simp only [← c6 hw, m3, m2, m1, m]; rfl
      | _ => rfl
    have hwt : startsNow w t.begun (kid M.id).start = true → w.start = .tagged := by
      intro h
      unfold startsNow at h
      cases hw : w.start <;> simp [hw] at h ⊢
    rw [announced_eq]
    by_cases hs : startsNow w t.begun (kid M.id).start = true
    · rw [if_pos hs]
      rw [hs] at hn
      refine ⟨{ m3 with skip := false, started := true, state := .body }, MSt.Runs.pass hk hcb.proper (k := 0) ?_,
        rfl, rfl, rfl, ?_, ⟨rfl, rfl, rfl, rfl, rfl, fun _ => rfl, rfl⟩⟩
      · unfold MSt.body
        simp only [m3] at hn ⊢
        rw [if_pos hn]
        unfold MSt.callStart
        simp only [m2, m1, m, Bool.or_self, hcb.start]
        simp [Status.completedOk]
      · simp [MSt.needStart]
    · rw [if_neg hs]
      have hs' : startsNow w t.begun (kid M.id).start = false := by simpa using hs
      exact ⟨m3, MSt.Runs.refl _ _, rfl, rfl, rfl, hn.trans hs',
        ⟨rfl, rfl, rfl, rfl, rfl, c6, rfl⟩⟩
  obtain ⟨m4, r4, s1, s2, s3, s4, s5⟩ := r4
  obtain ⟨me4, mx4, st4, tot4, idp4, szp4, cm4, ch4, cs4, sk4, sta4, val4, ca4⟩ := m4
  obtain ⟨f1, f2, f3, f4, f5, f6, f7⟩ := s5
  simp only at f1 f2 f3 f4 f5 f6 f7 s1 s2 s3
  subst f1 f2 f3 f4 f5 f7 s1 s2 s3
  refine ⟨_, (r3.trans r4).trans (MSt.Runs.pass (k := k) hk hcb.proper
    (x' := ({ me := me4, maxSize := mx4, state := .childDone, total := m.total + k, idp := idp4, szp := szp4, cm := cm4, child := .kid M.id p', childSkip := false, skip := false, started := sta4, value := if (kid M.id).consume then t.value.push M.id v else t.value, cached := false }, L')) ?_),
    ⟨rfl, d5⟩, rfl, ⟨rfl, rfl, rfl, rfl, rfl, f6, rfl⟩⟩
  unfold MSt.body
  simp only [s4, Bool.or_self]
  unfold ChildSt.feed
  simp only [d2]
  have hcons : (ChildSt.kid M.id p' : ChildSt kid).consume false t.value =
      if (kid M.id).consume then t.value.push M.id v else t.value := by
    simp only [ChildSt.consume, d3, d4]
    cases (kid M.id).consume <;> rfl
  simp only [hcons]
  rfl

/-- A child of known size is announced and skipped. -/
theorem MSt.skip_child (hk : ∀ id, (kid id).E.Good (I id)) {cb : Cb} (hcb : cb.Reads) {w : Wrap}
    {known : Nat → Bool} {m : MSt kid} {L : Log} {M : Meta} {me : Meta} {mx : Nat} {v : Val} {b : Bool}
    (hm : m.AtHdr M)
    (hc : m.Ctx w me mx v b) (hfit : m.total + M.size ≤ m.cap) (hz : M.size ≠ kUnknownElementSize)
    (h1 : ¬(me.size = kUnknownElementSize ∧ known M.id = false))
    (hns : (cb L (.element M)).2 = true) {d post : Bytes} {pos : Nat} (hd : M.size = d.length) :
    ∃ m', MSt.Runs cb w known I (m, L) (allAtOnce (d ++ post) pos) (m', L ++ [.element M])
        (allAtOnce post (pos + d.length)) ∧ m'.AtDone none ∧ m'.total = m.total + M.size ∧
      { m' with childSkip := false }.Ctx w me mx v b := by
  obtain ⟨me, mx, st0, tot, idp, szp, M, ch, cs, sk, sta, val, ca⟩ := m
  obtain ⟨c1, c2, c3, c4, c5, c6, c7⟩ := hc
  obtain ⟨g1, g2⟩ := hm
  simp only at c1 c2 c3 c4 c5 c6 c7 g1 g2 hfit
  subst c1 c2 c3 c4 c5 c7 g1 g2
  let m : MSt kid := { me := me, maxSize := mx, state := .validating, total := tot, idp := idp, szp := szp, cm := M, child := ch, childSkip := false, skip := false, started := sta, value := val, cached := false }
  let m1 : MSt kid := { m with state := .action }
  let m2 : MSt kid := { m1 with childSkip := true, state := .initing }
  obtain ⟨p0, p', d1, d2⟩ := skipEP_all (mx := mx - tot) (L := L ++ [.element M]) (post := post) (pos := pos)
    hd hz true
  let m3 : MSt kid := { m2 with child := .skip p0, state := .body }
  let m4 : MSt kid := { m3 with child := .skip p', total := m.total + M.size, state := .childDone }
  have e1 : MSt.body cb w known false (m, L) (allAtOnce (d ++ post) pos) =
      (none, (m1, L), allAtOnce (d ++ post) pos, 0) := by
    unfold MSt.body
    simp only [m]
    unfold MSt.validate
    simp only
    rw [if_neg hz, if_neg (by omega), if_neg h1, if_neg (fun h => hz h.2)]
  have e2 : MSt.body cb w known false (m1, L) (allAtOnce (d ++ post) pos) =
      (none, (m2, L ++ [.element M]), allAtOnce (d ++ post) pos, 0) := by
    unfold MSt.body
    simp only [m1, m, Bool.or_self, hcb.complete, hns]
    rfl
  have e3 : MSt.body cb w known false (m2, L ++ [.element M]) (allAtOnce (d ++ post) pos) =
      (none, (m3, L ++ [.element M]), allAtOnce (d ++ post) pos, 0) := by
    unfold MSt.body
    simp only [m2, m1, m]
    unfold MSt.initChild
    simp only [d1]
    rw [if_pos ⟨trivial, hz⟩]
  have e4 : MSt.body cb w known false (m3, L ++ [.element M]) (allAtOnce (d ++ post) pos) =
      (none, (m4, L ++ [.element M]), allAtOnce post (pos + d.length), d.length) := by
    unfold MSt.body
    have hn : m3.needStart w = false := by
      simp only [MSt.needStart, m3, ChildSt.starts, Bool.and_false]
    simp only [m3] at hn ⊢
    simp only [hn, m2, m1, m, Bool.or_true]
    unfold ChildSt.feed
    simp only [d2]
    simp only [Status.completedOk, ChildSt.consume, m4, m3, m2, m1, m, hd]
    rfl
  refine ⟨m4, (((MSt.Runs.pass hk hcb.proper e1).trans (MSt.Runs.pass hk hcb.proper e2)).trans
    (MSt.Runs.pass hk hcb.proper e3)).trans (MSt.Runs.pass hk hcb.proper e4), ⟨rfl, rfl⟩, rfl,
    ⟨rfl, rfl, rfl, rfl, rfl, c6, rfl⟩⟩

/-- After a child: the end, or the next one. -/
theorem MSt.next_child (hk : ∀ id, (kid id).E.Good (I id)) {cb : Cb} (hcb : cb.Proper) {w : Wrap}
    {known : Nat → Bool} {m : MSt kid} {L : Log} {c : Option Meta} {me : Meta} {mx : Nat} {v : Val} {b : Bool}
    (hm : m.AtDone c) (hc : { m with childSkip := false }.Ctx w me mx v b) (hfit : m.total ≤ m.cap) (s : Src) :
    ∃ m', MSt.Runs cb w known I (m, L) s (m', L) s ∧ m'.total = m.total ∧
      (if m.total = m.cap then m'.state = .ended ∧ { m' with childSkip := false }.Ctx w me mx v b
        else m'.Ctx w me mx v b ∧ match c with | some h => m'.AtHdr h | none => m'.AtId) := by
  have eb : MSt.body cb w known false (m, L) s = (m.nextChild.1, (m.nextChild.2, L), s, 0) := by
    unfold MSt.body
    simp only [hm.state]
  by_cases ht : m.total = m.cap
  · refine ⟨{ m with state := .ended }, MSt.Runs.pass hk hcb (k := 0) (eb.trans ?_), rfl, ?_⟩
    · unfold MSt.nextChild
      rw [if_neg (by omega), if_pos ht]
    · rw [if_pos ht]
      exact ⟨rfl, ⟨hc.me, hc.mx, hc.skip, hc.childSkip, hc.value, hc.begun, hc.cached⟩⟩
  · simp only [if_neg ht]
    cases c with
    | none =>
      refine ⟨{ m with idp := {}, szp := {}, child := .none, childSkip := false, state := .firstId },
        MSt.Runs.pass hk hcb (k := 0) (eb.trans ?_), rfl, ⟨hc.me, hc.mx, hc.skip, rfl, hc.value, hc.begun, hc.cached⟩,
        ⟨rfl, rfl, rfl⟩⟩
      unfold MSt.nextChild
      rw [if_neg (by omega), if_neg ht]
      simp only [hm.cached]
    | some h =>
      refine ⟨{ m with idp := {}, szp := {}, child := .none, childSkip := false, cm := h, state := .validating },
        MSt.Runs.pass hk hcb (k := 0) (eb.trans ?_), rfl, ⟨hc.me, hc.mx, hc.skip, rfl, hc.value, hc.begun, hc.cached⟩,
        ⟨rfl, rfl⟩⟩
      unfold MSt.nextChild
      rw [if_neg (by omega), if_neg ht]
      simp only [hm.cached]

/-- An element of unknown size ends at the end of the document. -/
theorem MSt.end_eof (hk : ∀ id, (kid id).E.Good (I id)) {cb : Cb} (hcb : cb.Proper) {w : Wrap}
    {known : Nat → Bool} {m : MSt kid} {L : Log} {me : Meta} {mx : Nat} {v : Val} {b : Bool}
    (hm : m.AtId) (hc : m.Ctx w me mx v b) (hu : me.size = kUnknownElementSize) (pos : Nat) :
    ∃ m', MSt.Runs cb w known I (m, L) (allAtOnce [] pos) (m', L) (allAtOnce [] pos) ∧ m'.total = m.total ∧
      m'.state = .ended ∧ m'.Ctx w me mx v b := by
  refine ⟨{ m with cm := { m.cm with position := pos, headerSize := 0 }, state := .ended },
    MSt.Runs.pass hk hcb (k := 0) ?_, rfl, rfl, ⟨hc.me, hc.mx, hc.skip, hc.childSkip, hc.value, hc.begun, hc.cached⟩⟩
  unfold MSt.body
  simp only [hm.state]
  unfold MSt.firstId
  have : IdP.feed {} (allAtOnce [] pos) = (.endOfFile, {}, allAtOnce [] pos, 0) := by
    simp [allAtOnce]
    rfl
  simp only [hm.idp, this, hc.me, hu]
  simp [hm.idp.symm]

/-- An element of unknown size ends where an element begins that it cannot contain. -/
theorem MSt.end_header (hk : ∀ id, (kid id).E.Good (I id)) {cb : Cb} (hcb : cb.Proper) {w : Wrap}
    {known : Nat → Bool} {m : MSt kid} {L : Log} {M : Meta} {me : Meta} {mx : Nat} {v : Val} {b : Bool}
    (hm : m.AtHdr M) (hc : m.Ctx w me mx v b) (hu : me.size = kUnknownElementSize)
    (hfit : m.total + (if M.size = kUnknownElementSize then 0 else M.size) ≤ m.cap)
    (hn : known M.id = false) (s : Src) :
    ∃ m', MSt.Runs cb w known I (m, L) s (m', L) s ∧ m'.total = m.total ∧
      m'.state = .ended ∧ m'.cached = true ∧ m'.cm = M ∧ { m' with cached := false }.Ctx w me mx v b := by
  refine ⟨{ m with cached := true, state := .ended },
    MSt.Runs.pass hk hcb (k := 0) ?_, rfl, rfl, rfl, hm.cm,
    ⟨hc.me, hc.mx, hc.skip, hc.childSkip, hc.value, hc.begun, rfl⟩⟩
  unfold MSt.body
  simp only [hm.state]
  unfold MSt.validate
  simp only [hm.cm, hc.me]
  rw [if_neg (by omega), if_pos ⟨hu, hn⟩]

end

end Verif.Web

/-
The document parser reads well-formed documents as the reference reading says.
-/
import Verif.Lemmas.WebmDocTree
import Verif.Lemmas.Ancestry

namespace Verif.Web
open Verif Verif.Spec

section
variable {kid : Nat → Kid} {I : ∀ id, (kid id).E.σ → Prop}

/-- Passes of the document parser's loop. -/
def Doc.Runs (cb : Cb) (root : Nat → Bool) (anc : Nat → Option (List Nat)) (I : ∀ id, (kid id).E.σ → Prop)
    (x : Doc kid × Log) (s : Src) (x' : Doc kid × Log) (s' : Src) (k : Nat) : Prop :=
  x.1.Inv I → x'.1.Inv I ∧ Doc.feed cb root anc x s = addN k (Doc.feed cb root anc x' s')

theorem Doc.Runs.trans {cb : Cb} {root anc} {x x' x'' : Doc kid × Log} {s s' s'' : Src} {k k' : Nat}
    (h : Doc.Runs cb root anc I x s x' s' k) (g : Doc.Runs cb root anc I x' s' x'' s'' k') :
    Doc.Runs cb root anc I x s x'' s'' (k + k') := by
  intro hi
  obtain ⟨h1, h2⟩ := h hi
  obtain ⟨g1, g2⟩ := g h1
  exact ⟨g1, by rw [h2, g2, addN_addN]⟩

theorem Doc.Runs.pass (hk : ∀ id, (kid id).E.Good (I id)) {cb : Cb} (hcb : cb.Proper) {root anc}
    (ha : AncOk kid root anc) {x x' : Doc kid × Log} {s s' : Src} {k : Nat}
    (h : Doc.body cb root anc x s = (none, x', s', k)) : Doc.Runs cb root anc I x s x' s' k := by
  intro hi
  obtain ⟨-, -, -, b⟩ := Doc.body_facts hk hcb ha hi h
  exact ⟨(b rfl).1, loopFeed_cont h (b rfl).2⟩

/-- About to read a top-level element at `pos`. -/
structure Doc.Clean (d : Doc kid) (pos : Nat) : Prop where
  state : d.state = .readId
  idp : d.idp = {}
  szp : d.szp = {}
  hs : d.cm.headerSize = 0
  pos : d.cm.position = pos
  skip : d.skip = false
  seek : d.didSeek = false

theorem Doc.read_header (hk : ∀ id, (kid id).E.Good (I id)) {cb : Cb} (hcb : cb.Proper) {root anc}
    (ha : AncOk kid root anc) {d : Doc kid} {L : Log} {h : Hd} (ho : h.Ok) {post : Bytes} {pos : Nat}
    (hd : d.Clean pos) (hr : root h.id = true ∨ h.size ≠ kUnknownElementSize) :
    ∃ d', Doc.Runs cb root anc I (d, L) (allAtOnce (h.bytes ++ post) pos) (d', L) (allAtOnce post (pos + h.len)) h.len ∧
      d'.state = .action ∧ d'.cm = h.at pos ∧ d'.skip = false ∧ d'.didSeek = false := by
  obtain ⟨z, hz1, hz2⟩ := Hd.feed_size ho post (pos + byteWidth h.id)
  obtain ⟨st0, idp, szp, ch, ⟨i0, h0, s0, p0⟩, sk, ds⟩ := d
  obtain ⟨c1, c2, c3, c4, c5, c6, c7⟩ := hd
  simp only at c1 c2 c3 c4 c5 c6 c7
  subst c1 c2 c3 c4 c5 c6 c7
  let d1 : Doc kid := { state := .readSize, idp := { remaining := some 0, id := h.id }, szp := {}, child := ch, cm := ⟨i0, 0 + byteWidth h.id, s0, p0⟩, skip := false, didSeek := false }
  let d2 : Doc kid := { d1 with szp := z, cm := ⟨h.id, 0 + byteWidth h.id + h.w, h.size, p0⟩, state := .validating }
  let d3 : Doc kid := { d2 with state := .action }
  have e1 : Doc.body cb root anc (({ state := .readId, idp := {}, szp := {}, child := ch, cm := ⟨i0, 0, s0, p0⟩, skip := false, didSeek := false } : Doc kid), L) (allAtOnce (h.bytes ++ post) p0) =
      (none, (d1, L), allAtOnce (vint h.w h.v ++ post) (p0 + byteWidth h.id), byteWidth h.id) := by
    unfold Doc.body
    simp only
    unfold Doc.readId
    simp only [Hd.bytes, header, List.append_assoc, IdP.feed_id ho.id]
    rfl
  have e2 : Doc.body cb root anc (d1, L) (allAtOnce (vint h.w h.v ++ post) (p0 + byteWidth h.id)) =
      (none, (d2, L), allAtOnce post (p0 + byteWidth h.id + h.w), h.w) := by
    unfold Doc.body
    simp only [d1]
    unfold Doc.readSize
    simp only [hz1, hz2]
    rfl
  have e3 : Doc.body cb root anc (d2, L) (allAtOnce post (p0 + byteWidth h.id + h.w)) =
      (none, (d3, L), allAtOnce post (p0 + byteWidth h.id + h.w), 0) := by
    unfold Doc.body
    simp only [d2, d1]
    unfold Doc.validate
    simp only
    by_cases hro : root h.id = true
    · simp only [hro, if_true]
      rfl
    · have hsz : h.size ≠ kUnknownElementSize := hr.resolve_left hro
      unfold Doc.validateOther
      simp [hro, hsz, d3, d2, d1]
  refine ⟨d3, ?_, rfl, ?_, rfl, rfl⟩
  · have := ((Doc.Runs.pass hk hcb ha e1).trans (Doc.Runs.pass hk hcb ha e2)).trans (Doc.Runs.pass hk hcb ha e3)
    rwa [Nat.add_zero, Nat.add_assoc p0] at this
  · simp only [d3, d2, Hd.at, Hd.len, Nat.zero_add]

/-- A top-level element is read. -/
theorem Doc.read_child (hk : ∀ id, (kid id).E.Good (I id)) {cb : Cb} (hcb : cb.Reads) {root anc}
    (ha : AncOk kid root anc) {d : Doc kid} {L L' : Log} {M : Meta} (h1 : d.state = .action) (h2 : d.cm = M)
    (h3 : d.skip = false) (h4 : d.didSeek = false) (hns : (cb L (.element M)).2 = false) {s s' : Src} {k : Nat}
    {v : Val} (hd : (kid M.id).E.Does M M.size (L ++ [.element M]) s L' s' k v none) :
    ∃ d', Doc.Runs cb root anc I (d, L) s (d', L') s' k ∧ d'.Clean s'.pos := by
  obtain ⟨p0, p', f1, f2, f3, f4, f5⟩ := hd
  obtain ⟨st0, idp, szp, ch, cm, sk, ds⟩ := d
  simp only at h1 h2 h3 h4
  subst h1 h2 h3 h4
  let d1 : Doc kid := { state := .initing, idp := idp, szp := szp, child := ch, cm := cm, skip := false, didSeek := false }
  let d2 : Doc kid := { d1 with child := .kid cm.id p0, state := .body }
  have e1 : Doc.body cb root anc (({ state := .action, idp := idp, szp := szp, child := ch, cm := cm, skip := false, didSeek := false } : Doc kid), L) s =
      (none, (d1, L ++ [.element cm]), s, 0) := by
    unfold Doc.body
    simp only [hcb.complete, hns]
    rfl
  have e2 : Doc.body cb root anc (d1, L ++ [.element cm]) s = (none, (d2, L ++ [.element cm]), s, 0) := by
    unfold Doc.body
    simp only [d1]
    unfold Doc.initChild
    simp [f1]
    rfl
  have e3 : Doc.body cb root anc (d2, L ++ [.element cm]) s =
      (none, (Doc.nextChild { d2 with child := .kid cm.id p' } s'.pos, L'), s', k) := by
    unfold Doc.body
    simp only [d2, d1]
    unfold ChildSt.feed
    simp only [f2]
    rfl
  refine ⟨_, by
    have := ((Doc.Runs.pass hk hcb.proper ha e1).trans (Doc.Runs.pass hk hcb.proper ha e2)).trans
      (Doc.Runs.pass hk hcb.proper ha e3)
    rwa [Nat.zero_add] at this, ?_⟩
  have hcd : (ChildSt.kid cm.id p' : ChildSt kid).cached = none := f5
  unfold Doc.nextChild
  simp only [hcd]
  exact ⟨rfl, rfl, rfl, rfl, rfl, rfl, rfl⟩

/-- A top-level element is skipped. -/
theorem Doc.skip_child (hk : ∀ id, (kid id).E.Good (I id)) {cb : Cb} (hcb : cb.Reads) {root anc}
    (ha : AncOk kid root anc) {d : Doc kid} {L : Log} {M : Meta} (h1 : d.state = .action) (h2 : d.cm = M)
    (h3 : d.skip = false) (h4 : d.didSeek = false) (hns : (cb L (.element M)).2 = true) {b post : Bytes} {pos : Nat}
    (hz : M.size ≠ kUnknownElementSize) (hb : M.size = b.length) :
    ∃ d', Doc.Runs cb root anc I (d, L) (allAtOnce (b ++ post) pos) (d', L ++ [.element M])
      (allAtOnce post (pos + b.length)) b.length ∧ d'.Clean (pos + b.length) := by
  obtain ⟨p0, p', f1, f2⟩ := skipEP_all (mx := M.size) (L := L ++ [.element M]) (post := post) (pos := pos)
    hb hz true
  obtain ⟨st0, idp, szp, ch, cm, sk, ds⟩ := d
  simp only at h1 h2 h3 h4
  subst h1 h2 h3 h4
  let d1 : Doc kid := { state := .initing, idp := idp, szp := szp, child := ch, cm := cm, skip := true, didSeek := false }
  let d2 : Doc kid := { d1 with child := .skip p0, state := .body }
  have e1 : Doc.body cb root anc (({ state := .action, idp := idp, szp := szp, child := ch, cm := cm, skip := false, didSeek := false } : Doc kid), L) (allAtOnce (b ++ post) pos) =
      (none, (d1, L ++ [.element cm]), allAtOnce (b ++ post) pos, 0) := by
    unfold Doc.body
    simp only [hcb.complete, hns]
    rfl
  have e2 : Doc.body cb root anc (d1, L ++ [.element cm]) (allAtOnce (b ++ post) pos) =
      (none, (d2, L ++ [.element cm]), allAtOnce (b ++ post) pos, 0) := by
    unfold Doc.body
    simp only [d1]
    unfold Doc.initChild
    simp only [f1]
    rw [if_pos ⟨trivial, hz⟩]
  have e3 : Doc.body cb root anc (d2, L ++ [.element cm]) (allAtOnce (b ++ post) pos) =
      (none, (Doc.nextChild { d2 with child := .skip p' } (pos + b.length), L ++ [.element cm]),
        allAtOnce post (pos + b.length), b.length) := by
    unfold Doc.body
    simp only [d2, d1]
    unfold ChildSt.feed
    simp only [f2]
    rfl
  refine ⟨_, by
    have := ((Doc.Runs.pass hk hcb.proper ha e1).trans (Doc.Runs.pass hk hcb.proper ha e2)).trans
      (Doc.Runs.pass hk hcb.proper ha e3)
    rwa [Nat.zero_add] at this, ?_⟩
  exact ⟨rfl, rfl, rfl, rfl, rfl, rfl, rfl⟩

/-- The end of the document. -/
theorem Doc.read_eof (hk : ∀ id, (kid id).E.Good (I id)) {cb : Cb} (hcb : cb.Proper) {root anc}
    (ha : AncOk kid root anc) {d : Doc kid} {L : Log} {pos : Nat} (hd : d.Clean pos) (hi : d.Inv I) :
    ∃ d', Doc.feed cb root anc (d, L) (allAtOnce [] pos) = (.okCompleted, (d', L), allAtOnce [] pos, 0) := by
  obtain ⟨st0, idp, szp, ch, ⟨i0, h0, s0, p0⟩, sk, ds⟩ := d
  obtain ⟨c1, c2, c3, c4, c5, c6, c7⟩ := hd
  simp only at c1 c2 c3 c4 c5 c6 c7
  subst c1 c2 c3 c4 c5 c6 c7
  let d1 : Doc kid := { state := .ended, idp := {}, szp := {}, child := ch, cm := ⟨i0, 0, s0, p0⟩, skip := false, didSeek := false }
  have hf : IdP.feed {} (allAtOnce [] p0) = (.endOfFile, {}, allAtOnce [] p0, 0) := by
    simp [allAtOnce]
    rfl
  have e1 : Doc.body cb root anc (({ state := .readId, idp := {}, szp := {}, child := ch, cm := ⟨i0, 0, s0, p0⟩, skip := false, didSeek := false } : Doc kid), L) (allAtOnce [] p0) =
      (none, (d1, L), allAtOnce [] p0, 0) := by
    unfold Doc.body
    simp only
    unfold Doc.readId
    simp only [hf]
    simp [Status.completedOk, allAtOnce, d1]
  obtain ⟨-, r⟩ := Doc.Runs.pass hk hcb ha e1 hi
  refine ⟨d1, ?_⟩
  rw [r]
  unfold Doc.feed
  rw [loopFeed_ret (show Doc.body cb root anc (d1, L) (allAtOnce [] p0) = (some .okCompleted, (d1, L), allAtOnce [] p0, 0) from rfl)]
  rfl

end

/-! ### Whole documents -/

theorem topKids_master {id : Nat} {st co : Bool} {r : Wrap} {ks' : Kids}
    (h : topKids.entry id = some (st, co, .master r ks')) : webmTop.root id = true := by
  unfold topKids at h
  simp only [Kids.ofList, child, Kids.entry] at h
  unfold webmTop
  split at h
  · next e => subst e; rfl
  · split at h
    · next e => subst e; rfl
    · split at h <;> simp at h

theorem announced_none (t : Told) (m : Meta) (st : Bool) :
    t.announce none m st = { t with log := t.log ++ [.element m] } := rfl

theorem doc_reads {cb : Cb} (hcb : cb.Reads) {I : ∀ id, (webmTop.kids.find cb id).E.σ → Prop}
    (hk : ∀ id, (webmTop.kids.find cb id).E.Good (I id)) :
    ∀ (t : Tree) (d : Doc (webmTop.kids.find cb)) (told : Told) (pos : Nat), t.Document topKids →
      pos + t.bytes.length + 1 < 2 ^ 64 → d.Clean pos → d.Inv I →
      ∃ d', Doc.feed cb webmTop.root webmTop.anc (d, told.log) (allAtOnce t.bytes pos) =
        (.okCompleted, (d', (t.read cb.skips topKids none pos told).log), allAtOnce [] (pos + t.bytes.length),
          t.bytes.length) := by
  have ha := webm_ancOk cb
  have hcont : ∀ {d d' : Doc (webmTop.kids.find cb)} {L L' : Log} {s s' : Src} {k : Nat} {n : Nat},
      Doc.Runs cb webmTop.root webmTop.anc I (d, L) s (d', L') s' k → d.Inv I →
      ∀ {L2 s2}, (d'.Inv I → ∃ d2, Doc.feed cb webmTop.root webmTop.anc (d', L') s' = (.okCompleted, (d2, L2), s2, n)) →
      ∃ d2, Doc.feed cb webmTop.root webmTop.anc (d, L) s = (.okCompleted, (d2, L2), s2, k + n) := by
    intro d d' L L' s s' k n hr hi L2 s2 h
    obtain ⟨h1, h2⟩ := hr hi
    obtain ⟨d2, h3⟩ := h h1
    exact ⟨d2, by rw [h2, h3]; rfl⟩
  intro t
  induction t with
  | nil =>
    intro d told pos hdoc hpos hc hi
    exact Doc.read_eof hk hcb.proper ha hc hi
  | leaf id w p next ih =>
    intro d told pos hdoc hpos hc hi
    obtain ⟨hw, hdoc⟩ := hdoc
    obtain ⟨h1, h2, h3, h4, h5, -⟩ := hw
    obtain ⟨k1, k2⟩ := known_ne h3 h4
    have hl : (Tree.leaf id w p next).bytes.length = byteWidth id + w + p.data.length + next.bytes.length := by
      simp [Tree.bytes, header, Par.vint_length]; omega
    have hb : (Tree.leaf id w p next).bytes = (Hd.mk id w p.data.length).bytes ++ (p.data ++ next.bytes) := by
      simp [Tree.bytes, Hd.bytes]
    have ho : (Hd.mk id w p.data.length).Ok := ⟨h1, h2, h3, by simp only; omega⟩
    obtain ⟨d1, r1, a1, a2, a3, a4⟩ := Doc.read_header hk hcb.proper ha (L := told.log) ho (post := p.data ++ next.bytes) hc
      (.inr (by rw [Hd.size_known h4]; exact k2))
    have hM : Hd.at ⟨id, w, p.data.length⟩ pos = ⟨id, byteWidth id + w, p.data.length, pos⟩ := by
      simp only [Hd.at, Hd.size_known h4, Hd.len]
    rw [hM] at a2
    have hhl : (Hd.mk id w p.data.length).len = byteWidth id + w := rfl
    rw [hhl] at r1
    generalize hMe : (⟨id, byteWidth id + w, p.data.length, pos⟩ : Meta) = M at a2
    have m1 : M.id = id := by rw [← hMe]
    have m2 : M.size = p.data.length := by rw [← hMe]
    have m3 : M.position + M.headerSize = pos + (byteWidth id + w) := by rw [← hMe]
    -- read or skipped
    have hstep : ∃ d2, Doc.Runs cb webmTop.root webmTop.anc I (d1, told.log)
        (allAtOnce (p.data ++ next.bytes) (pos + (byteWidth id + w)))
        (d2, ((Tree.leaf id w p .nil).read cb.skips topKids none pos told).log)
        (allAtOnce next.bytes (pos + (byteWidth id + w) + p.data.length)) p.data.length ∧
        d2.Clean (pos + (byteWidth id + w) + p.data.length) := by
      by_cases hs : (cb told.log (.element M)).2 = true
      · obtain ⟨d2, r2, c2⟩ := Doc.skip_child hk hcb ha a1 a2 a3 a4 hs (post := next.bytes)
          (pos := pos + (byteWidth id + w)) (by rw [m2]; exact k2) m2
        have hT : (Tree.leaf id w p .nil).read cb.skips topKids none pos told =
            { told with log := told.log ++ [.element M] } := by
          simp only [Tree.read, Cb.skips, hMe, hs, if_true]
        rw [hT]
        exact ⟨d2, r2, c2⟩
      · have hs' : (cb told.log (.element M)).2 = false := by simpa using hs
        cases he : topKids.entry id with
        | none =>
          have hf : webmTop.kids.find cb M.id = ⟨unknownEP cb, false, false⟩ := by
            rw [m1]; exact (Kids.find_entry cb topKids id).trans (by rw [he])
          obtain ⟨d2, r2, c2⟩ := Doc.read_child hk hcb ha a1 a2 a3 a4 hs'
            (by rw [hf]; exact unknown_does hcb (post := next.bytes) (pos := pos + (byteWidth id + w)) m2 (by omega))
          have hT : (Tree.leaf id w p .nil).read cb.skips topKids none pos told =
              (told.announce none M false).close false id
                ((told.announce none M false).log ++ (p.read M none).1) .nil := by
            simp only [Tree.read, Cb.skips, hMe, hs', he]
            rfl
          rw [hT]
          exact ⟨d2, r2, c2⟩
        | some x =>
          obtain ⟨st, co, g⟩ := x
          rw [he] at h5
          cases g with
          | master r ks' => exact h5.elim
          | leaf l =>
            have hf : webmTop.kids.find cb M.id = ⟨l.parser cb, st, co⟩ := by
              rw [m1]; exact (Kids.find_entry cb topKids id).trans (by rw [he]; rfl)
            obtain ⟨d2, r2, c2⟩ := Doc.read_child hk hcb ha a1 a2 a3 a4 hs'
              (by rw [hf]; exact Leaf.does hcb h5 (post := next.bytes) (pos := pos + (byteWidth id + w)) m2 (by omega)
                    m3.symm (by omega))
            have hT : (Tree.leaf id w p .nil).read cb.skips topKids none pos told =
                (told.announce none M st).close co id ((told.announce none M st).log ++ (p.read M (some l)).1)
                  (p.read M (some l)).2 := by
              simp only [Tree.read, Cb.skips, hMe, hs', he]
              rfl
            rw [hT]
            exact ⟨d2, r2, c2⟩
    obtain ⟨d2, r2, c2⟩ := hstep
    rw [hb, Tree.read_leaf]
    have hlen : ((Hd.mk id w p.data.length).bytes ++ (p.data ++ next.bytes)).length =
        byteWidth id + w + p.data.length + next.bytes.length := by rw [← hb, hl]
    have hp : pos + (byteWidth id + w + p.data.length + next.bytes.length) =
        pos + (byteWidth id + w) + p.data.length + next.bytes.length := by omega
    rw [hlen, hp]
    exact hcont (r1.trans r2) hi (fun hi2 => ih d2 _ _ hdoc (by omega) c2 hi2)
  | node id w known kids next ihk ih =>
    clear ihk
    intro d told pos hdoc hpos hc hi
    have hl : (Tree.node id w known kids next).bytes.length = byteWidth id + w + kids.bytes.length + next.bytes.length := by
      simp [Tree.bytes, header, Par.vint_length]; omega
    -- what the table says
    have hnode : ∀ {sized : Bool}, (Tree.node id w known kids .nil).WellFormed topKids sized none →
        ∃ st co r ks', topKids.entry id = some (st, co, .master r ks') ∧
          (if known then kids.bytes.length + 1 < 2 ^ (7 * w) ∧ kids.WellFormed ks' true none
          else r.forward = true ∧ kids.WellFormed ks' false none) := by
      intro sized hw
      have h := hw.2.2.2.1
      cases he : topKids.entry id with
      | none => rw [he] at h; exact h.elim
      | some x =>
        obtain ⟨st, co, g⟩ := x
        cases g with
        | leaf l => rw [he] at h; exact h.elim
        | master r ks' =>
          rw [he] at h
          refine ⟨st, co, r, ks', rfl, ?_⟩
          cases known with
          | true => exact h
          | false => exact ⟨h.2.1, h.2.2.2⟩
    have hgen : ∃ sized, (Tree.node id w known kids .nil).WellFormed topKids sized none ∧ next.Document topKids ∧
        (known = false → next = .nil) := by
      cases known with
      | true => exact ⟨true, hdoc.1, hdoc.2, fun h => by cases h⟩
      | false =>
        obtain ⟨h1, h2⟩ := hdoc
        subst h2
        exact ⟨false, h1, trivial, fun _ => rfl⟩
    obtain ⟨sized, hw, hdoc, hnx⟩ := hgen
    obtain ⟨st, co, r, ks', he, hkw⟩ := hnode hw
    obtain ⟨h1, h2, h3, -⟩ := hw
    generalize hv : (if known then kids.bytes.length else 2 ^ (7 * w) - 1) = v
    have hb : (Tree.node id w known kids next).bytes = (Hd.mk id w v).bytes ++ (kids.bytes ++ next.bytes) := by
      simp [Tree.bytes, Hd.bytes, ← hv]
    have hvlt : v < 2 ^ (7 * w) := by
      rw [← hv]
      split
      · next hx => rw [if_pos hx] at hkw; have := hkw.1; omega
      · have := Nat.two_pow_pos (7 * w); omega
    have ho : (Hd.mk id w v).Ok := ⟨h1, h2, h3, hvlt⟩
    obtain ⟨d1, r1, a1, a2, a3, a4⟩ := Doc.read_header hk hcb.proper ha (L := told.log) ho (post := kids.bytes ++ next.bytes) hc
      (.inl (topKids_master he))
    have hhl : (Hd.mk id w v).len = byteWidth id + w := rfl
    rw [hhl] at r1
    have hM : Hd.at ⟨id, w, v⟩ pos = ⟨id, byteWidth id + w, if known then kids.bytes.length else 2 ^ 64 - 1, pos⟩ := by
      cases known with
      | true =>
        simp only [if_true] at hv hkw ⊢
        subst hv
        simp only [Hd.at, Hd.size_known hkw.1, Hd.len]
      | false =>
        simp only [Bool.false_eq_true, if_false] at hv ⊢
        subst hv
        simp only [Hd.at, Hd.size_unknown, Hd.len]
        rfl
    rw [hM] at a2
    generalize hMe : (⟨id, byteWidth id + w, if known then kids.bytes.length else 2 ^ 64 - 1, pos⟩ : Meta) = M at a2
    have m1 : M.id = id := by rw [← hMe]
    have hf : webmTop.kids.find cb M.id = ⟨masterEP cb r ks'.has (ks'.find cb), st, co⟩ := by
      rw [m1]; exact (Kids.find_entry cb topKids id).trans (by rw [he]; rfl)
    have hstep : ∃ d2, Doc.Runs cb webmTop.root webmTop.anc I (d1, told.log)
        (allAtOnce (kids.bytes ++ next.bytes) (pos + (byteWidth id + w)))
        (d2, ((Tree.node id w known kids .nil).read cb.skips topKids none pos told).log)
        (allAtOnce next.bytes (pos + (byteWidth id + w) + kids.bytes.length)) kids.bytes.length ∧
        d2.Clean (pos + (byteWidth id + w) + kids.bytes.length) := by
      by_cases hs : (cb told.log (.element M)).2 = true
      · obtain ⟨M', e1, e2⟩ := (hcb _ _).2 hs
        cases e1
        have hkn : known = true := by
          cases known with
          | true => rfl
          | false => rw [← hMe] at e2; exact absurd rfl e2
        subst hkn
        have m2 : M.size = kids.bytes.length := by rw [← hMe]; rfl
        obtain ⟨d2, r2, c2⟩ := Doc.skip_child hk hcb ha a1 a2 a3 a4 hs (post := next.bytes)
          (pos := pos + (byteWidth id + w)) e2 m2
        have hT : (Tree.node id w true kids .nil).read cb.skips topKids none pos told =
            { told with log := told.log ++ [.element M] } := by
          simp only [if_true] at hMe
          simp only [Tree.read, Cb.skips, if_true]
          simp only [hMe, hs, Bool.and_self, if_true]
        rw [hT]
        exact ⟨d2, r2, c2⟩
      · have hs' : (cb told.log (.element M)).2 = false := by simpa using hs
        have hT : (Tree.node id w known kids .nil).read cb.skips topKids none pos told =
            (told.announce none M st).close co id
              (closing r M (innerOf cb r ks' kids M (pos + (byteWidth id + w)) (told.log ++ [.element M])))
              (innerOf cb r ks' kids M (pos + (byteWidth id + w)) (told.log ++ [.element M])).value := by
          simp only [Tree.read, Cb.skips, he]
          simp only [hMe, hs', Bool.and_false]
          simp only [closing, innerOf, dueOf, announced_none]
          rfl
        rw [hT]
        have hdoes : (masterEP cb r ks'.has (ks'.find cb)).Does M M.size (told.log ++ [.element M])
            (allAtOnce (kids.bytes ++ next.bytes) (pos + (byteWidth id + w)))
            (closing r M (innerOf cb r ks' kids M (pos + (byteWidth id + w)) (told.log ++ [.element M])))
            (allAtOnce next.bytes (pos + (byteWidth id + w) + kids.bytes.length)) kids.bytes.length
            (innerOf cb r ks' kids M (pos + (byteWidth id + w)) (told.log ++ [.element M])).value none := by
          cases known with
          | true =>
            have m2 : M.size = kids.bytes.length := by rw [← hMe]; rfl
            simp only [if_true] at hkw
            obtain ⟨k1, k2⟩ := known_ne h3 hkw.1
            exact (sizedOk_and_unsizedOk hcb kids).1.does hcb hkw.2 m2 (by omega) (by omega)
          | false =>
            have m2 : M.size = kUnknownElementSize := by rw [← hMe]; rfl
            have hn := hnx rfl
            subst hn
            have h0 : Tree.nil.bytes = [] := rfl
            have hl0 : Tree.nil.bytes.length = 0 := rfl
            have := (sizedOk_and_unsizedOk hcb kids).2.does hcb (after := none) (rest := []) (r := r) (M := M)
              (mx := M.size) (L := told.log ++ [.element M]) (pos := pos + (byteWidth id + w)) hkw.2 rfl (by simp) hkw.1 m2
              (by rw [m2, List.append_nil]; unfold kUnknownElementSize; omega)
              (by rw [List.append_nil]; omega)
            exact this
        obtain ⟨d2, r2, c2⟩ := Doc.read_child hk hcb ha a1 a2 a3 a4 hs' (by rw [hf]; exact hdoes)
        exact ⟨d2, r2, c2⟩
    obtain ⟨d2, r2, c2⟩ := hstep
    rw [hb, Tree.read_node _ _ _ _ _ _ _ _ _ _ he]
    have hlen : ((Hd.mk id w v).bytes ++ (kids.bytes ++ next.bytes)).length =
        byteWidth id + w + kids.bytes.length + next.bytes.length := by rw [← hb, hl]
    have hp : pos + (byteWidth id + w + kids.bytes.length + next.bytes.length) =
        pos + (byteWidth id + w) + kids.bytes.length + next.bytes.length := by omega
    rw [hlen, hp]
    exact hcont (r1.trans r2) hi (fun hi2 => ih d2 _ _ hdoc (by omega) c2 hi2)

end Verif.Web

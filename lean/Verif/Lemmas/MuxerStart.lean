/-
Lemmas about one call that hands over a frame: which cluster it goes to.
-/
import Verif.Lemmas.MuxerFile
import Verif.Spec.ClusterStart

namespace Verif.Mux
open Verif Verif.Spec

/-- A history of calls on a segment whose header is written, with more calls to come. -/
theorem run_more {g : Seg} {head : Bytes} (hg : g.Ready head) (hn : g.Numbered) (ys : List SegCall) :
    ∀ {xs : List SegCall} {t : SegSt} {s : Sink} {acc : List Frame} (_ : g.Between head t s acc)
      (_ : g.Orderly t (xs ++ ys)) (_ : SmallRun xs (g.put t) s),
    ∃ rs t' s', Seg.run xs (g.put t) s = (rs, g.put t', s') ∧ g.Orderly t' ys ∧
      g.Between head t' s' (acc ++ acceptedFrames xs rs) := by
  intro xs
  induction xs with
  | nil =>
    intro t s acc h ho _
    exact ⟨[], t, s, rfl, ho, by simpa [acceptedFrames] using h⟩
  | cons x xs ih =>
    intro t s acc h ho hsm
    obtain ⟨r, g', s', e, hc⟩ := call_step (rest := xs ++ ys) hg hn h ho
    have hb := hsm.first e
    have hr := hsm.rest e
    rcases hc with hc | ⟨t', rfl, ho', hc⟩
    · omega
    rcases hc with ⟨rfl, hbt⟩ | ⟨⟨c, rfl⟩, hbt, f, hxf, href⟩
    · obtain ⟨rs, t2, s2, e2, o2, b2⟩ := ih hbt ho' hr
      refine ⟨.ok () :: rs, t2, s2, ?_, o2, ?_⟩
      · rw [run_cons e, e2]
      · simpa [acceptedFrames] using b2
    · obtain ⟨rs, t2, s2, e2, o2, b2⟩ := ih hbt ho' hr
      refine ⟨.err c :: rs, t2, s2, ?_, o2, ?_⟩
      · rw [run_cons e, e2]
      · simpa [acceptedFrames] using b2

/-- The open cluster of a state, as a value of the specification. -/
def openOne (c : Cluster) (ws : List Frame) : ClusterOf := ⟨c.timecode, ws⟩

/-- What the test says when the frame is not too late for the open cluster. -/
theorem testFrame_spec {g : Seg} {t : SegSt} {f : Frame} {e : TrackEntry} {c : Cluster} {ws : List Frame}
    (hby : g.tracks.byNumber f.trackNumber = some e) (hf : t.forceNew = false) (hc : t.cur = some c)
    (hnear : t.Near g f.timestamp) (hts : f.timestamp < 2 ^ 64) :
    ((g.put t).testFrame e.kind f.timestamp f.isKey = 1 ∧
      StartsCluster g false (some (openOne c ws)) c.payloadSize f) ∨
    ((g.put t).testFrame e.kind f.timestamp f.isKey = 0 ∧
      ¬ StartsCluster g false (some (openOne c ws)) c.payloadSize f) := by
  obtain ⟨h1, h2⟩ := hnear hf c hc
  unfold Seg.testFrame
  have ef : (g.put t).forceNew = t.forceNew := rfl
  have ec : (g.put t).cur = t.cur := rfl
  have e1 : (g.put t).info = g.info := rfl
  have e2 : (g.put t).maxDuration = g.maxDuration := rfl
  have e3 : (g.put t).maxSize = g.maxSize := rfl
  rw [ef, ec, hf, hc, e1, e2, e3]
  simp only [Bool.false_eq_true, if_false]
  have hd : toI64 (f.timestamp / g.info.scale - c.timecode) = ((f.timestamp / g.info.scale - c.timecode : Nat) : Int) := by
    unfold toI64; omega
  have hd2 : toU64 ((f.timestamp / g.info.scale - c.timecode : Nat) : Int) * g.info.scale % 2 ^ 64 =
      (f.timestamp / g.info.scale - c.timecode) * g.info.scale := by
    have h3 : (f.timestamp / g.info.scale - c.timecode) * g.info.scale ≤ f.timestamp :=
      Nat.le_trans (Nat.mul_le_mul_right _ (Nat.sub_le _ _)) (Nat.div_mul_le_self _ _)
    have h4 : toU64 ((f.timestamp / g.info.scale - c.timecode : Nat) : Int) = f.timestamp / g.info.scale - c.timecode := by
      unfold toU64; omega
    rw [h4]; exact Nat.mod_eq_of_lt (by omega)
  have hkind : (e.kind == .video) = onVideo g f := by simp [onVideo, hby]
  rw [if_neg (by omega), hd, if_neg (by unfold kMaxBlockTimecode; omega), hd2, hkind]
  have hnf : ¬ TooFar g (some (openOne c ws)) f := by
    rintro ⟨c', e', hlt⟩
    cases e'
    simp only [openOne, ticks] at hlt
    omega
  have key : StartsCluster g false (some (openOne c ws)) c.payloadSize f ↔
      ((f.isKey && onVideo g f) = true ∨ (g.maxDuration > 0 ∧ (f.timestamp / g.info.scale - c.timecode) * g.info.scale ≥ g.maxDuration) ∨
        (g.maxSize > 0 ∧ c.payloadSize ≥ g.maxSize)) := by
    unfold StartsCluster
    constructor
    · rintro (h | h | h | h | ⟨c', h, h3, h4⟩ | h)
      · cases h
      · cases h
      · exact absurd h hnf
      · exact .inl (by simp [h])
      · cases h; exact .inr (.inl ⟨h3, h4⟩)
      · exact .inr (.inr h)
    · rintro (h | h | h)
      · exact .inr (.inr (.inr (.inl (by simpa using h))))
      · exact .inr (.inr (.inr (.inr (.inl ⟨_, rfl, h⟩))))
      · exact .inr (.inr (.inr (.inr (.inr h))))
  rw [key]
  split
  · exact .inl ⟨rfl, .inl (by assumption)⟩
  · split
    · exact .inl ⟨rfl, .inr (.inl (by assumption))⟩
    · split
      · exact .inl ⟨rfl, .inr (.inr (by assumption))⟩
      · exact .inr ⟨rfl, fun h => by rcases h with h | h | h <;> contradiction⟩

/-- A piece as a value of the specification. -/
def Piece.cl (p : Piece) : ClusterOf := ⟨p.tc, p.frames⟩

/-- The state of the file, as the specification sees it: the complete clusters, the open one (with the
size of its payload) and the frames that wait. -/
def Seg.Viewed (g : Seg) (head : Bytes) (t : SegSt) (s : Sink) (closed : List ClusterOf) (last : Option ClusterOf)
    (size : Nat) : Prop :=
  (g.Fresh head t s ∧ closed = [] ∧ last = none) ∨
  ∃ ps ws c, g.Open head t s ps ws c ∧ ws ≠ [] ∧ closed = ps.map Piece.cl ∧ last = some (openOne c ws) ∧
    size = c.payloadSize

/-- The test for a frame too late for the open cluster. -/
theorem noteFar_why (g : Seg) (t : SegSt) (f : Frame) (s : Sink) (hts : f.timestamp / g.info.scale < 2 ^ 63)
    (hc : ∀ c, t.cur = some c → c.timecode ≤ f.timestamp / g.info.scale) {b : Bool}
    (hb : Seg.noteFar f (g.put t) s = (.ok (), g.put { t with forceNew := b }, s)) :
    b = true → t.forceNew = true ∨ ∃ c, t.cur = some c ∧ c.timecode + 0x7FFF < f.timestamp / g.info.scale := by
  rcases t with ⟨cu, np, fn, cl, cur, q, qu, lt, ltt⟩
  unfold Seg.noteFar M.modify at hb
  have hb' := congrArg (fun x => x.2.1.forceNew) hb
  intro h
  subst h
  cases cur with
  | none => exact .inl hb'
  | some c =>
    have h1 := hc c rfl
    have hsub : subU64 (f.timestamp / g.info.scale) c.timecode = f.timestamp / g.info.scale - c.timecode := by
      unfold subU64 toU64; omega
    have hk : kMaxBlockTimecode.toNat = 0x7FFF := rfl
    by_cases h : subU64 (f.timestamp / g.info.scale) c.timecode > kMaxBlockTimecode.toNat
    · exact .inr ⟨c, rfl, by rw [hsub, hk] at h; omega⟩
    · left
      have e : (if subU64 (f.timestamp / g.info.scale) c.timecode > kMaxBlockTimecode.toNat then
          ({ g.put ⟨cu, np, fn, cl, some c, q, qu, lt, ltt⟩ with forceNew := true } : Seg) else
          g.put ⟨cu, np, fn, cl, some c, q, qu, lt, ltt⟩) = g.put ⟨cu, np, fn, cl, some c, q, qu, lt, ltt⟩ := if_neg h
      exact (congrArg Seg.forceNew e).symm.trans hb'

/-- The time of a new cluster is the one the specification names. -/
theorem clusterTimecode_eq (g : Seg) (q : List Frame) (f : Frame) :
    Seg.clusterTimecode g.info.scale q f.timestamp = newTime g q f := by
  cases q with
  | nil => rfl
  | cons a q =>
    simp only [Seg.clusterTimecode, newTime, ticks]
    split <;> omega

/-- Choosing the cluster for a frame. -/
theorem doNewCluster_filed {g : Seg} {head : Bytes} (hg : g.Ready head) {t : SegSt} {s : Sink}
    {acc : List Frame} {f : Frame} {e : TrackEntry} (n : Nat) (h : g.Between head t s acc)
    (hby : g.tracks.byNumber f.trackNumber = some e) (hnear : t.Near g f.timestamp)
    (hts : f.timestamp / g.info.scale < 2 ^ 63) (hl : t.lastTs ≤ f.timestamp) (h64 : f.timestamp < 2 ^ 64)
    (hspan : t.cur = none → Span g.info.scale (t.queue.map Frame.timestamp ++ [f.timestamp]))
    {asked : Bool} {closed : List ClusterOf} {last : Option ClusterOf} {size : Nat}
    (hv : g.Viewed head t s closed last size) (hb1 : t.forceNew = true → asked = true ∨ TooFar g last f)
    (hb2 : asked = true → t.forceNew = true)
    {g1 : Seg} {s1 : Sink} (hr : Seg.doNewCluster e.kind f.timestamp f.isKey (n + 1) (g.put t) s = (.ok (), g1, s1)) :
    ∃ t1 ps ws c, g1 = g.put t1 ∧ (t1.queue = [] ∧ t1.forceNew = false) ∧ g.Open head t1 s1 ps ws c ∧
      ((StartsCluster g asked last size f ∧
        ps.map Piece.cl = closed ++ last.toList.map (fun c => ⟨c.tc, c.frames ++ t.queue.take (leftBehind last t.queue f)⟩) ∧
        c.timecode = newTime g (t.queue.drop (leftBehind last t.queue f)) f ∧
        ws = t.queue.drop (leftBehind last t.queue f)) ∨
       (¬ StartsCluster g asked last size f ∧ ∃ k, last = some k ∧ ps.map Piece.cl = closed ∧ c.timecode = k.tc ∧
        ws = k.frames ++ t.queue)) := by
  unfold Seg.doNewCluster at hr
  rw [M.get_bind] at hr
  have hmod : ∀ (k : Unit → M Seg Unit), ((M.modify fun g : Seg => { g with forceNew := false }) >>= k) (g.put t) s =
      k () (g.put { t with forceNew := false }) s := fun k => rfl
  have hwhen1 : M.when (decide ((1 : Int) > 0)) (Seg.makeNewCluster f.timestamp) = Seg.makeNewCluster f.timestamp := rfl
  have hwhen0 : M.when (decide ((0 : Int) > 0)) (Seg.makeNewCluster f.timestamp) = pure () := rfl
  have hpure : ∀ (k : Unit → M Seg Unit) x y, ((pure () : M Seg Unit) >>= k) x y = k () x y := fun _ _ _ => rfl
  rcases hv with ⟨hf, rfl, rfl⟩ | ⟨ps, ws, c, ho, hne, rfl, rfl, rfl⟩
  · -- the first cluster
    have htest : (g.put t).testFrame e.kind f.timestamp f.isKey = 1 := by
      rcases testFrame_near (g := g) (kind := e.kind) (isKey := f.isKey) hnear with h1 | ⟨-, -, h1⟩
      · exact h1
      · exact absurd hf.cur h1
    simp only [htest] at hr
    rw [if_neg (by decide), hmod, hwhen1] at hr
    have hf' : g.Fresh head { t with forceNew := false } s := ⟨hf.1, hf.2, hf.3, hf.4, hf.5, hf.6, hf.7, hf.8⟩
    obtain ⟨e1, o1⟩ := makeNew_fresh hg hf' hts
    rw [M.bind_of_ok e1] at hr
    obtain ⟨c1, c2, c3, c4, c5⟩ := clusterTimecode_fresh h.sorted (hspan hf.cur) hg.scale h.fine
    obtain ⟨t2, s2, k, e2, o2, q2, f2, tc2, l2, l2'⟩ := writeFramesAll_open hg o1 h.used c4
    rw [M.bind_of_ok e2, if_pos (by decide)] at hr
    cases hr
    refine ⟨t2, [], _, k, rfl, ⟨q2, f2⟩, o2, .inl ⟨.inr (.inl rfl), rfl, ?_, ?_⟩⟩
    · rw [tc2]; exact clusterTimecode_eq g t.queue f
    · rfl
  · have ho' : g.Open head { t with forceNew := false } s ps ws c := ho.congr rfl rfl rfl rfl
    rcases h.state with ⟨hf, -⟩ | ⟨ps2, ws2, c2, ho2, -, hacc, htc, hq⟩
    · exact absurd (ho.cur.symm.trans hf.cur) (by simp)
    have hcc : c2 = c := by have := ho2.cur; rw [ho.cur] at this; cases this; rfl
    subst hcc
    have hst : ((g.put t).testFrame e.kind f.timestamp f.isKey = 1 ∧
          StartsCluster g asked (some (openOne c2 ws)) c2.payloadSize f) ∨
        ((g.put t).testFrame e.kind f.timestamp f.isKey = 0 ∧
          ¬ StartsCluster g asked (some (openOne c2 ws)) c2.payloadSize f) := by
      cases hfn : t.forceNew with
      | true =>
        left
        refine ⟨?_, ?_⟩
        · unfold Seg.testFrame
          rw [show (g.put t).forceNew = true from hfn]
          rfl
        · rcases hb1 hfn with h1 | h1
          · exact .inl h1
          · exact .inr (.inr (.inl h1))
      | false =>
        have ha : asked = false := by
          cases asked with
          | false => rfl
          | true => rw [hb2 rfl] at hfn; cases hfn
        rw [ha]
        exact testFrame_spec hby hfn ho.cur hnear h64
    rcases hst with ⟨htest, hsc⟩ | ⟨htest, hsc⟩
    · simp only [htest] at hr
      rw [if_neg (by decide), hmod, hwhen1] at hr
      have hle : c2.timecode ≤ f.timestamp / g.info.scale := Nat.le_trans htc (Nat.div_le_div_right hl)
      rcases makeNew_open hg ho' hne hq hts hle with ⟨m, t1, s1', c1, e1, hm, o1, q1, u1, f1, l1, tc1, en⟩ | ⟨e', g', s', e1, hb⟩
      rotate_left
      · rw [M.bind_of_err e1] at hr
        cases hr
      rw [M.bind_of_ok e1] at hr
      have hsort := SortedTs.drop h.sorted m
      obtain ⟨c2', c3, c4, c5⟩ := clusterTimecode_open (q := t.queue.drop m) (ts := f.timestamp) hsort
        (fun f hf => hq f (List.mem_of_mem_drop hf)) hle
      have hq1 : t1.queue = t.queue.drop m := q1
      obtain ⟨t2, s2, k, e2, o2, q2, f2, tc2, l2, l2'⟩ := writeFramesAll_open hg o1 (by
          intro hn
          rw [u1]
          refine h.used fun he => hn ?_
          rw [hq1, he]; simp) (by rw [hq1, tc1]; exact c4)
      rw [M.bind_of_ok e2, if_pos (by decide)] at hr
      cases hr
      have hlb : leftBehind (some (openOne c2 ws)) t.queue f = m := en.symm
      refine ⟨t2, _, _, k, rfl, ⟨q2, f2.trans f1⟩, o2, .inl ⟨hsc, ?_, ?_, ?_⟩⟩
      · rw [hlb]; simp [Piece.cl, openOne]
      · rw [hlb, tc2, tc1]; exact clusterTimecode_eq g _ f
      · rw [hlb, hq1, List.nil_append]
    · simp only [htest] at hr
      rw [if_neg (by decide), hmod, hwhen0, hpure] at hr
      obtain ⟨t2, s2, k, e2, o2, q2, f2, tc2, l2, l2'⟩ := writeFramesAll_open hg ho' h.used hq
      rw [M.bind_of_ok e2, if_pos (by decide)] at hr
      cases hr
      exact ⟨t2, ps, _, k, rfl, ⟨q2, f2⟩, o2, .inr ⟨hsc, _, rfl, rfl, tc2, rfl⟩⟩

/-- Writing the frame to the chosen cluster. -/
theorem writeDirect_filed {g : Seg} {head : Bytes} (hg : g.Ready head) {t : SegSt} {s : Sink}
    {f : Frame} {ps : List Piece} {ws : List Frame} {c : Cluster} (ho : g.Open head t s ps ws c) (hq : t.queue = [] ∧ t.forceNew = false)
    (hsd : g.Sound f) (hn : 1 ≤ f.trackNumber ∧ f.trackNumber ≤ 126)
    {g' : Seg} {s' : Sink} (hr : Seg.writeDirect f (g.put t) s = (.ok (), g', s')) :
    ∃ t' c' f', g' = g.put t' ∧ (t'.queue = [] ∧ t'.forceNew = false) ∧ Carried f f' ∧ g.Open head t' s' ps (ws ++ [f']) c' ∧
      c'.timecode = c.timecode := by
  obtain ⟨w1, w2, w3⟩ := withReference_spec t hsd hn
  unfold Seg.writeDirect at hr
  rw [M.get_bind, if_neg (by simp [kMaxTrackNumber]; omega)] at hr
  obtain ⟨r, c', s2, e1, k, hs, hc⟩ := addFrame_open ho.holds ho.sure ho.direct ho.tc w2 w3.1
    (by rw [ho.scale]; exact w3.2)
  rcases hc with ⟨rfl, hfit, hh⟩ | ⟨⟨e, rfl⟩, hfit, hh⟩
  · rw [M.bind_of_ok (onCur_put ho.cur e1)] at hr
    obtain ⟨q, m, e2, o2⟩ := ho.cued hg k _ f w1.track w1.time hs hh
    rw [M.bind_of_ok e2] at hr
    cases hr
    exact ⟨{ t with cur := some c', cues := q, newCuepoint := m, lastTs := f.timestamp, lastTrackTs := upd t.lastTrackTs f.trackNumber f.timestamp }, c', _, rfl, hq, w1, o2.congr rfl rfl rfl rfl, k.timecode⟩
  · rw [M.bind_of_err (onCur_put ho.cur e1)] at hr
    cases hr

/-- One call that hands over a frame and succeeds. -/
theorem call_filed {g : Seg} {head : Bytes} (hg : g.Ready head) (hn : g.Numbered) {t : SegSt} {s : Sink}
    {acc : List Frame} (h : g.Between head t s acc) {f : Frame} {rest : List SegCall}
    (ho : g.Orderly t (.frame f :: rest)) (h64 : f.timestamp < 2 ^ 64)
    {g2 : Seg} {s2 : Sink} (hcall : Seg.call (.frame f) (g.put t) s = (.ok (), g2, s2))
    {closed : List ClusterOf} {last : Option ClusterOf} {size : Nat} (hv : g.Viewed head t s closed last size) :
    ∃ t' f' closed' last' size', g2 = g.put t' ∧ t'.forceNew = false ∧ Carried f f' ∧ g.Viewed head t' s2 closed' last' size' ∧
      Filed g t.forceNew size f f' closed last t.queue closed' last' t'.queue := by
  have hs := ho.sound f (by simp)
  have hst := ho.start
  have hck : Seg.checkHeaderInfo (g.put t) s = (.ok (), g.put t, s) := by
    unfold Seg.checkHeaderInfo
    rw [M.get_bind, if_pos (show (g.put t).headerWritten = true from hg.header)]; rfl
  change Seg.addGenericFrame f (g.put t) s = _ at hcall
  unfold Seg.addGenericFrame at hcall
  rw [M.bind_of_ok hck, M.get_bind] at hcall
  have el : (g.put t).lastTs = t.lastTs := rfl
  have et : (g.put t).tracks = g.tracks := rfl
  rw [el, et] at hcall
  by_cases hlast : f.timestamp < t.lastTs
  · rw [if_pos hlast] at hcall; cases hcall
  rw [if_neg hlast] at hcall
  cases hby : g.tracks.byNumber f.trackNumber with
  | none => rw [hby] at hcall; cases hcall
  | some e =>
    rw [hby] at hcall
    have hk : g.knows f = true := by simp [Seg.knows, hby]
    obtain ⟨n1, n2⟩ := hn.frame hby
    simp only at hcall
    rw [M.bind_of_ok (Seg.note_discard hg t f s)] at hcall
    have hle : ∀ c, t.cur = some c → c.timecode ≤ f.timestamp / g.info.scale := by
      intro c hc
      rcases h.state with ⟨hf, -⟩ | ⟨ps, ws, c', o, -, -, h3, -⟩
      · rw [hf.cur] at hc; cases hc
      · rw [o.cur] at hc; cases hc
        exact Nat.le_trans h3 (Nat.div_le_div_right (by omega))
    obtain ⟨b, hb, hb1, hb2, hnear⟩ := noteFar_run g t f s hs.fine.2 hle
    have hb3 := noteFar_why g t f s hs.fine.2 hle hb
    rw [M.bind_of_ok hb, M.get_bind] at hcall
    have hqs : g.queues f = (g.hasVideo && e.kind == .audio) := by simp [Seg.queues, hby]
    have hcond : ((g.put { t with forceNew := b }).hasVideo && e.kind == .audio &&
        !(g.put { t with forceNew := b }).forceNew) = (g.queues f && !b) := by rw [hqs]; rfl
    rw [hcond] at hcall
    have hfar : b = true ↔ t.forceNew = true ∨ TooFar g last f := by
      constructor
      · intro hbt
        rcases hb3 hbt with h1 | ⟨c, h1, h2⟩
        · exact .inl h1
        · right
          rcases hv with ⟨hf, -⟩ | ⟨ps, ws, c', o, -, -, rfl, -⟩
          · rw [hf.cur] at h1; cases h1
          · rw [o.cur] at h1; cases h1
            exact ⟨_, rfl, h2⟩
      · rintro (h1 | ⟨c, h1, h2⟩)
        · exact hb2 h1
        · rcases hv with ⟨-, -, rfl⟩ | ⟨ps, ws, c', o, -, -, rfl, -⟩
          · cases h1
          · cases h1
            cases hbb : b with
            | true => rfl
            | false =>
              have := (hnear hbb c' o.cur).2
              simp only [openOne, ticks] at h2
              omega
    have hkb : KeptBack g t.forceNew last f ↔ (g.queues f && !b) = true := by
      unfold KeptBack
      cases hbb : b with
      | true =>
        have := hfar.mp hbb
        simp only [Bool.not_true, Bool.and_false, Bool.false_eq_true, iff_false]
        rintro ⟨-, h1, h2⟩
        rcases this with h3 | h3
        · rw [h3] at h1; cases h1
        · exact h2 h3
      | false =>
        have h1 : ¬ (t.forceNew = true ∨ TooFar g last f) := fun hc => by rw [hfar.mpr hc] at hbb; cases hbb
        simp only [Bool.not_false, Bool.and_true]
        refine ⟨fun hx => hx.1, fun hx => ⟨hx, ?_, fun hc => h1 (.inr hc)⟩⟩
        cases hfn : t.forceNew with
        | false => rfl
        | true => exact absurd (.inl hfn) h1
    by_cases hq : (g.queues f && !b) = true
    · -- the frame waits
      rw [if_pos hq] at hcall
      have hkb' := hkb.mpr hq
      simp only [Bool.and_eq_true, Bool.not_eq_true'] at hq
      obtain ⟨hq, rfl⟩ := hq
      unfold Seg.queueFrame at hcall
      rw [if_neg (by unfold kMaxTrackNumber; omega)] at hcall
      obtain ⟨cp1, cp2, ⟨cp3, cp4⟩, cp5⟩ := copy_same hs.additional
      let t2 : SegSt := { t with forceNew := false, queue := t.queue ++ [f.copy], queueUsed := true }
      cases hcall
      refine ⟨t2, f.copy, closed, last, size, rfl, rfl, cp1, ?_, .inl ⟨hkb', rfl, rfl, rfl⟩⟩
      rcases hv with ⟨hf, h1, h2⟩ | ⟨ps, ws, c, o, h1, h2, h3, h4⟩
      · exact .inl ⟨⟨hf.1, hf.2, hf.3, hf.4, hf.5, hf.6, hf.7, hf.8⟩, h1, h2⟩
      · exact .inr ⟨ps, ws, c, o.congr rfl rfl rfl rfl, h1, h2, h3, h4⟩
    · rw [if_neg hq] at hcall
      have hnk : ¬ KeptBack g t.forceNew last f := fun hc => hq (hkb.mp hc)
      have hbtw : g.Between head { t with forceNew := b } s acc := by
        refine ⟨h.used, h.sorted, h.fine, h.held, h.last, h.seen, ?_⟩
        rcases h.state with ⟨hf, hacc, hl⟩ | ⟨ps, ws, c, o, h1, h2, h3, h4⟩
        · exact .inl ⟨⟨hf.1, hf.2, hf.3, hf.4, hf.5, hf.6, hf.7, hf.8⟩, hacc, hl⟩
        · exact .inr ⟨ps, ws, c, o.congr rfl rfl rfl rfl, h1, h2, h3, h4⟩
      have hv' : g.Viewed head { t with forceNew := b } s closed last size := by
        rcases hv with ⟨hf, h1, h2⟩ | ⟨ps, ws, c, o, h1, h2, h3, h4⟩
        · exact .inl ⟨⟨hf.1, hf.2, hf.3, hf.4, hf.5, hf.6, hf.7, hf.8⟩, h1, h2⟩
        · exact .inr ⟨ps, ws, c, o.congr rfl rfl rfl rfl, h1, h2, h3, h4⟩
      have hspan : t.cur = none → Span g.info.scale (t.queue.map Frame.timestamp ++ [f.timestamp]) := by
        intro hcn
        have h0 := hst hcn
        have hbf := hb1 hcn
        unfold Seg.opening at h0
        rw [if_neg (by simp [hk]), if_neg (by rw [← hbf]; exact hq)] at h0
        exact h0
      obtain ⟨r1, g1, s1, e1⟩ : ∃ r g1 s1, Seg.doNewCluster e.kind f.timestamp f.isKey 4
          (g.put { t with forceNew := b }) s = (r, g1, s1) := ⟨_, _, _, rfl⟩
      cases r1 with
      | err e' => rw [M.bind_of_err e1] at hcall; cases hcall
      | ub => rw [M.bind_of_ub e1] at hcall; cases hcall
      | ok u =>
        rw [M.bind_of_ok e1] at hcall
        obtain ⟨t1, ps, ws, c, rfl, q1, o1, hc⟩ := doNewCluster_filed hg 3 hbtw hby hnear hs.fine.2
          (by exact Nat.le_of_not_lt hlast) h64 hspan hv' (fun hx => hfar.mp hx) (fun hx => hb2 hx) e1
        obtain ⟨t2, c2, f', rfl, q2, cf, o2, tc2⟩ := writeDirect_filed hg o1 q1 hs ⟨n1, n2⟩ hcall
        refine ⟨t2, f', ps.map Piece.cl, some (openOne c2 (ws ++ [f'])), c2.payloadSize, rfl, q2.2, cf,
          .inr ⟨ps, _, c2, o2, by simp, rfl, rfl, rfl⟩, ?_⟩
        rw [q2.1]
        rcases hc with ⟨h1, h2, h3, h4⟩ | ⟨h1, k, h2, h3, h4, h5⟩
        · refine .inr (.inl ⟨hnk, h1, h2, ?_, rfl⟩)
          unfold openOne
          rw [tc2, h3, h4]
        · refine .inr (.inr ⟨hnk, h1, k, h2, h3, ?_, rfl⟩)
          unfold openOne
          rw [tc2, h4, h5]

theorem Seg.put_inj {g : Seg} {t t' : SegSt} (h : g.put t = g.put t') : t = t' := by
  rcases t with ⟨a1, a2, a3, a4, a5, a6, a7, a8, a9⟩
  rcases t' with ⟨b1, b2, b3, b4, b5, b6, b7, b8, b9⟩
  unfold Seg.put at h
  injections
  subst_vars
  rfl

/-- What a refused call may do to the clusters: nothing, or everything except adding the frame. -/
def Filed0 (g : Seg) (f : Frame) (closed : List ClusterOf) (last : Option ClusterOf) (waiting : List Frame)
    (closed' : List ClusterOf) (last' : Option ClusterOf) : Prop :=
  (closed' = closed ∧ last' = last) ∨
  (closed' = closed ++ last.toList.map (fun c => ⟨c.tc, c.frames ++ waiting.take (leftBehind last waiting f)⟩) ∧
    last' = some ⟨newTime g (waiting.drop (leftBehind last waiting f)) f, waiting.drop (leftBehind last waiting f)⟩) ∨
  ∃ c, last = some c ∧ closed' = closed ∧ last' = some ⟨c.tc, c.frames ++ waiting⟩

/-- One call that is refused. -/
theorem call_refused {g : Seg} {head : Bytes} (hg : g.Ready head) (hn : g.Numbered) {t : SegSt} {s : Sink}
    {acc : List Frame} (h : g.Between head t s acc) {f : Frame} {rest : List SegCall} (ho : g.Orderly t (.frame f :: rest))
    (h64 : f.timestamp < 2 ^ 64)
    {g2 : Seg} {s2 : Sink} {er : Int} (hcall : Seg.call (.frame f) (g.put t) s = (.err er, g2, s2)) (hsm : s2.data.length + 1 < 2 ^ 56)
    {closed : List ClusterOf} {last : Option ClusterOf} {size : Nat} (hv : g.Viewed head t s closed last size) :
    ∃ t' closed' last' size', g2 = g.put t' ∧ g.Viewed head t' s2 closed' last' size' ∧
      Filed0 g f closed last t.queue closed' last' := by
  obtain ⟨r0, g0, s0, ecall, hstep⟩ := call_step hg hn h ho
  rw [hcall] at ecall
  cases ecall
  rcases hstep with hbig | ⟨tq, etq, -, hstep⟩
  · omega
  have hbt : g.Between head tq s2 acc := by
    rcases hstep with ⟨hx, -⟩ | ⟨-, hx, -⟩
    · cases hx
    · exact hx
  have hs := ho.sound f (by simp)
  have hst := ho.start
  have hck : Seg.checkHeaderInfo (g.put t) s = (.ok (), g.put t, s) := by
    unfold Seg.checkHeaderInfo
    rw [M.get_bind, if_pos (show (g.put t).headerWritten = true from hg.header)]; rfl
  change Seg.addGenericFrame f (g.put t) s = _ at hcall
  unfold Seg.addGenericFrame at hcall
  rw [M.bind_of_ok hck, M.get_bind] at hcall
  have el : (g.put t).lastTs = t.lastTs := rfl
  have et : (g.put t).tracks = g.tracks := rfl
  rw [el, et] at hcall
  by_cases hlast : f.timestamp < t.lastTs
  · rw [if_pos hlast] at hcall; cases hcall
    exact ⟨t, closed, last, size, rfl, hv, .inl ⟨rfl, rfl⟩⟩
  rw [if_neg hlast] at hcall
  cases hby : g.tracks.byNumber f.trackNumber with
  | none =>
    rw [hby] at hcall; cases hcall
    exact ⟨t, closed, last, size, rfl, hv, .inl ⟨rfl, rfl⟩⟩
  | some e =>
    rw [hby] at hcall
    have hk : g.knows f = true := by simp [Seg.knows, hby]
    obtain ⟨n1, n2⟩ := hn.frame hby
    simp only at hcall
    rw [M.bind_of_ok (Seg.note_discard hg t f s)] at hcall
    have hle : ∀ c, t.cur = some c → c.timecode ≤ f.timestamp / g.info.scale := by
      intro c hc
      rcases h.state with ⟨hf, -⟩ | ⟨ps, ws, c', o, -, -, h3, -⟩
      · rw [hf.cur] at hc; cases hc
      · rw [o.cur] at hc; cases hc
        exact Nat.le_trans h3 (Nat.div_le_div_right (by omega))
    obtain ⟨b, hb, hb1, hb2, hnear⟩ := noteFar_run g t f s hs.fine.2 hle
    have hb3 := noteFar_why g t f s hs.fine.2 hle hb
    rw [M.bind_of_ok hb, M.get_bind] at hcall
    have hqs : g.queues f = (g.hasVideo && e.kind == .audio) := by simp [Seg.queues, hby]
    have hcond : ((g.put { t with forceNew := b }).hasVideo && e.kind == .audio &&
        !(g.put { t with forceNew := b }).forceNew) = (g.queues f && !b) := by rw [hqs]; rfl
    rw [hcond] at hcall
    by_cases hq : (g.queues f && !b) = true
    · rw [if_pos hq] at hcall
      unfold Seg.queueFrame at hcall
      rw [if_neg (by unfold kMaxTrackNumber; omega)] at hcall
      cases hcall
    · rw [if_neg hq] at hcall
      have hbtw : g.Between head { t with forceNew := b } s acc := by
        refine ⟨h.used, h.sorted, h.fine, h.held, h.last, h.seen, ?_⟩
        rcases h.state with ⟨hf, hacc, hl⟩ | ⟨ps, ws, c, o, h1, h2, h3, h4⟩
        · exact .inl ⟨⟨hf.1, hf.2, hf.3, hf.4, hf.5, hf.6, hf.7, hf.8⟩, hacc, hl⟩
        · exact .inr ⟨ps, ws, c, o.congr rfl rfl rfl rfl, h1, h2, h3, h4⟩
      have hv' : g.Viewed head { t with forceNew := b } s closed last size := by
        rcases hv with ⟨hf, h1, h2⟩ | ⟨ps, ws, c, o, h1, h2, h3, h4⟩
        · exact .inl ⟨⟨hf.1, hf.2, hf.3, hf.4, hf.5, hf.6, hf.7, hf.8⟩, h1, h2⟩
        · exact .inr ⟨ps, ws, c, o.congr rfl rfl rfl rfl, h1, h2, h3, h4⟩
      have hspan : t.cur = none → Span g.info.scale (t.queue.map Frame.timestamp ++ [f.timestamp]) := by
        intro hcn
        have h0 := hst hcn
        have hbf := hb1 hcn
        unfold Seg.opening at h0
        rw [if_neg (by simp [hk]), if_neg (by rw [← hbf]; exact hq)] at h0
        exact h0
      have hfar : b = true → t.forceNew = true ∨ TooFar g last f := by
        intro hbt
        rcases hb3 hbt with h1 | ⟨c, h1, h2⟩
        · exact .inl h1
        · right
          rcases hv with ⟨hf, -⟩ | ⟨ps, ws, c', o, -, -, rfl, -⟩
          · rw [hf.cur] at h1; cases h1
          · rw [o.cur] at h1; cases h1
            exact ⟨_, rfl, h2⟩
      rcases doNewCluster_one (ts := f.timestamp) hg e.kind f.isKey 3 hbtw hnear hs.fine.2 (by exact Nat.le_of_not_lt hlast) hspan
        with ⟨t1, s1, e1, ch⟩ | ⟨e', g', s', e1, hbig⟩
      rotate_left
      · rw [M.bind_of_err e1] at hcall; cases hcall; omega
      rw [M.bind_of_ok e1] at hcall
      obtain ⟨t1', ps, ws, c, et1, q1, o1, hc⟩ := doNewCluster_filed hg 3 hbtw hby hnear hs.fine.2
        (by exact Nat.le_of_not_lt hlast) h64 hspan hv' hfar (fun hx => hb2 hx) e1
      cases Seg.put_inj et1
      -- the frame itself is refused by the cluster
      obtain ⟨w1, w2, w3⟩ := withReference_spec t1 hs ⟨n1, n2⟩
      unfold Seg.writeDirect at hcall
      rw [M.get_bind, if_neg (by simp [kMaxTrackNumber]; omega)] at hcall
      obtain ⟨r, c', s3, e3, k, hs3, hc3⟩ := addFrame_open o1.holds o1.sure o1.direct o1.tc w2 w3.1
        (by rw [o1.scale]; exact w3.2)
      rcases hc3 with ⟨rfl, hfit, hh⟩ | ⟨⟨e4, rfl⟩, hfit, hh⟩
      · rw [M.bind_of_ok (onCur_put o1.cur e3)] at hcall
        obtain ⟨q, m, e2, o2⟩ := o1.cued hg k _ f w1.track w1.time hs3 hh
        rw [M.bind_of_ok e2] at hcall
        cases hcall
      · rw [M.bind_of_err (onCur_put o1.cur e3)] at hcall
        cases hcall
        have o5 := o1.refused k hs3 hh
        have hne : ws ≠ [] := by
          intro hw
          refine hfit ?_
          unfold FitsTime
          rw [o1.scale, w1.time]
          have htc : c.timecode = f.timestamp / g.info.scale := by
            obtain ⟨ps', ws', c'', oo, -, -, h2, -⟩ := ch.state
            have : c'' = c := by have := oo.cur; rw [o1.cur] at this; cases this; rfl
            subst this
            refine h2 ?_
            have b1 := oo.holds.blocks
            rw [o1.holds.blocks, hw] at b1
            exact List.eq_nil_of_length_eq_zero b1.symm
          rw [htc]
          exact ⟨hg.scale, Nat.le_refl _, by omega⟩
        refine ⟨_, ps.map Piece.cl, some (openOne c' ws), c'.payloadSize, rfl, .inr ⟨ps, ws, c', o5, hne, rfl, rfl, rfl⟩, ?_⟩
        rcases hc with ⟨h1, h2, h3, h4⟩ | ⟨h1, kk, h2, h3, h4, h5⟩
        · refine .inr (.inl ⟨h2, ?_⟩)
          unfold openOne
          rw [k.timecode, h3, h4]
        · refine .inr (.inr ⟨kk, h2, h3, ?_⟩)
          unfold openOne
          rw [k.timecode, h4, h5]

/-! ### Clusters stay trim -/

theorem not_video {g : Seg} {f : Frame} (h : g.queues f = true) : onVideo g f = false := by
  unfold Seg.queues at h
  unfold onVideo
  cases hb : g.tracks.byNumber f.trackNumber with
  | none => rfl
  | some e =>
    rw [hb] at h
    cases hk : e.kind <;> simp_all

theorem _root_.Verif.Spec.Trim.grow {g : Seg} {c : ClusterOf} (h : Trim g c) {q : List Frame} (hq : ∀ f ∈ q, g.queues f = true) :
    Trim g ⟨c.tc, c.frames ++ q⟩ := by
  obtain ⟨moved, first, more, e, h1, h2, h3⟩ := h
  refine ⟨moved, first, more ++ q, by rw [e]; simp, h1, h2, fun f hf => ?_⟩
  rcases List.mem_append.mp hf with hf | hf
  · exact h3 f hf
  · have := hq f hf
    refine ⟨fun hc => ?_, fun hc => ?_⟩
    · rw [not_video this] at hc; cases hc.2
    · rw [this] at hc; cases hc

/-- All clusters are trim. -/
def AllTrim (g : Seg) (closed : List ClusterOf) (last : Option ClusterOf) : Prop :=
  (∀ c ∈ closed, Trim g c) ∧ ∀ c, last = some c → Trim g c

theorem queues_carried {g : Seg} {f f' : Frame} (h : Carried f f') : g.queues f' = g.queues f ∧ onVideo g f' = onVideo g f ∧
    ticks g f' = ticks g f ∧ f'.isKey = f.isKey := by
  unfold Seg.queues onVideo ticks
  rw [h.track, h.time, h.key]
  exact ⟨rfl, rfl, rfl, rfl⟩

theorem closed_trim {g : Seg} {closed : List ClusterOf} {last : Option ClusterOf} {q : List Frame} (h : AllTrim g closed last)
    (hq : ∀ f ∈ q, g.queues f = true) (n : Nat) :
    ∀ c ∈ closed ++ last.toList.map (fun c => (⟨c.tc, c.frames ++ q.take n⟩ : ClusterOf)), Trim g c := by
  intro c hc
  rcases List.mem_append.mp hc with hc | hc
  · exact h.1 c hc
  · cases last with
    | none => simp at hc
    | some k =>
      simp only [Option.toList_some, List.map_cons, List.map_nil, List.mem_singleton] at hc
      rw [hc]
      exact (h.2 k rfl).grow fun f hf => hq f (List.mem_of_mem_take hf)

theorem filed_trim {g : Seg} {asked : Bool} {size : Nat} {f f' : Frame} {closed closed' : List ClusterOf}
    {last last' : Option ClusterOf} {q q' : List Frame} (hf : Filed g asked size f f' closed last q closed' last' q')
    (hc : Carried f f') (h : AllTrim g closed last) (hq : ∀ f ∈ q, g.queues f = true) :
    AllTrim g closed' last' := by
  obtain ⟨e1, e2, e3, e4⟩ := queues_carried (g := g) hc
  rcases hf with ⟨-, rfl, rfl, -⟩ | ⟨-, -, rfl, rfl, -⟩ | ⟨-, hns, k, rfl, rfl, rfl, -⟩
  · exact h
  · refine ⟨closed_trim h hq _, fun c hc => ?_⟩
    cases hc
    exact ⟨q.drop (leftBehind last q f), [f'], [], by simp, by simp, fun x hx => hq x (List.mem_of_mem_drop hx), by simp⟩
  · refine ⟨h.1, fun c hc => ?_⟩
    cases hc
    obtain ⟨moved, first, more, e, h1, h2, h3⟩ := (h.2 k rfl).grow hq
    simp only at e
    refine ⟨moved, first, more ++ [f'], by rw [e]; simp, h1, h2, fun x hx => ?_⟩
    rcases List.mem_append.mp hx with hx | hx
    · exact h3 x hx
    · rw [List.mem_singleton.mp hx]
      refine ⟨fun hc => hns (.inr (.inr (.inr (.inl (by rw [e4, e2] at hc; exact hc))))), fun _ hm => ?_⟩
      refine Nat.lt_of_not_le fun hle => hns (.inr (.inr (.inr (.inr (.inl ⟨k, rfl, hm, ?_⟩)))))
      rw [e3] at hle; exact hle

theorem filed0_trim {g : Seg} {f : Frame} {closed closed' : List ClusterOf}
    {last last' : Option ClusterOf} {q : List Frame} (hf : Filed0 g f closed last q closed' last')
    (h : AllTrim g closed last) (hq : ∀ f ∈ q, g.queues f = true) : AllTrim g closed' last' := by
  rcases hf with ⟨rfl, rfl⟩ | ⟨rfl, rfl⟩ | ⟨k, rfl, rfl, rfl⟩
  · exact h
  · refine ⟨closed_trim h hq _, fun c hc => ?_⟩
    cases hc
    exact ⟨q.drop (leftBehind last q f), [], [], by simp, by simp, fun x hx => hq x (List.mem_of_mem_drop hx), by simp⟩
  · refine ⟨h.1, fun c hc => ?_⟩
    cases hc
    exact (h.2 k rfl).grow hq

/-- A history of calls leaves trim clusters. -/
theorem run_trim {g : Seg} {head : Bytes} (hg : g.Ready head) (hn : g.Numbered) :
    ∀ {xs : List SegCall} {t : SegSt} {s : Sink} {acc : List Frame} (_ : g.Between head t s acc)
      (_ : g.Orderly t xs) (_ : ∀ f, .frame f ∈ xs → f.timestamp < 2 ^ 64) (_ : SmallRun xs (g.put t) s)
      {closed : List ClusterOf} {last : Option ClusterOf} {size : Nat} (_ : g.Viewed head t s closed last size)
      (_ : AllTrim g closed last),
    ∃ rs t' s', Seg.run xs (g.put t) s = (rs, g.put t', s') ∧
      g.Between head t' s' (acc ++ acceptedFrames xs rs) ∧
      ∃ closed' last' size', g.Viewed head t' s' closed' last' size' ∧ AllTrim g closed' last' := by
  intro xs
  induction xs with
  | nil =>
    intro t s acc h _ _ _ closed last size hv ht
    exact ⟨[], t, s, rfl, by simpa [acceptedFrames] using h, closed, last, size, hv, ht⟩
  | cons x xs ih =>
    intro t s acc h ho h64 hsm closed last size hv ht
    obtain ⟨r, g', s', e, hc⟩ := call_step hg hn h ho
    have hb := hsm.first e
    have hr := hsm.rest e
    rcases hc with hc | ⟨t', rfl, ho', hc⟩
    · omega
    have h64' : ∀ f, .frame f ∈ xs → f.timestamp < 2 ^ 64 := fun f hf => h64 f (by simp [hf])
    rcases hc with ⟨rfl, hbt⟩ | ⟨⟨c, rfl⟩, hbt, f, hxf, href⟩
    · have hnext : ∃ closed' last' size', g.Viewed head t' s' closed' last' size' ∧ AllTrim g closed' last' := by
        cases x with
        | force =>
          have e' : Seg.call .force (g.put t) s = (.ok (), g.put { t with forceNew := true }, s) := rfl
          rw [e'] at e
          simp only [Prod.mk.injEq, true_and] at e
          obtain ⟨e1, rfl⟩ := e
          cases Seg.put_inj e1
          refine ⟨closed, last, size, ?_, ht⟩
          rcases hv with ⟨hf, h1, h2⟩ | ⟨ps, ws, c, o, h1, h2, h3, h4⟩
          · exact .inl ⟨⟨hf.1, hf.2, hf.3, hf.4, hf.5, hf.6, hf.7, hf.8⟩, h1, h2⟩
          · exact .inr ⟨ps, ws, c, o.congr rfl rfl rfl rfl, h1, h2, h3, h4⟩
        | frame f =>
          obtain ⟨t2, f', closed', last', size', e1, -, hcar, hv', hfl⟩ := call_filed hg hn h ho (h64 f (by simp)) e hv
          cases Seg.put_inj e1
          exact ⟨closed', last', size', hv', filed_trim hfl hcar ht h.held⟩
      obtain ⟨closed', last', size', hv', ht'⟩ := hnext
      obtain ⟨rs, t2, s2, e2, b2, hfin⟩ := ih hbt ho' h64' hr hv' ht'
      refine ⟨.ok () :: rs, t2, s2, ?_, ?_, hfin⟩
      · rw [run_cons e, e2]
      · simpa [acceptedFrames] using b2
    · subst hxf
      obtain ⟨t2, closed', last', size', e1, hv', hfl⟩ := call_refused hg hn h ho (h64 f (by simp)) e hb hv
      cases Seg.put_inj e1
      obtain ⟨rs, t2, s2, e2, b2, hfin⟩ := ih hbt ho' h64' hr hv' (filed0_trim hfl ht h.held)
      refine ⟨.err c :: rs, t2, s2, ?_, ?_, hfin⟩
      · rw [run_cons e, e2]
      · simpa [acceptedFrames] using b2

end Verif.Mux

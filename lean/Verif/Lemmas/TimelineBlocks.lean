/-
What an application sees of the clusters of a file.
-/
import Verif.Lemmas.Timeline
import Verif.Lemmas.Scalars

namespace Verif.Spec
open Verif Verif.Web Verif.Mux

local macro "idOk" : term => `(by unfold IsId; decide +kernel)

/-- The element a tree for `bs` stands for adds this to the value of its parent. -/
def Part (ks : Kids) (id : Nat) (x : Option Val) (bs : Bytes) : Prop :=
  ∃ t : Tree, t.bytes = bs ∧ t.Quiet ∧ t.FineIn ks ∧ ∀ acc, t.val ks acc = match x with
    | none => acc
    | some y => acc.push id y

theorem get_part_ne (acc : Val) {id j : Nat} (x : Option Val) (h : id ≠ j) :
    (match x with | none => acc | some y => acc.push id y).get j = acc.get j := by
  cases x <;> simp [h]

theorem get_part_eq (acc : Val) {id : Nat} (x : Option Val) (h : acc.get id = none) :
    (match x with | none => acc | some y => acc.push id y).get id = x := by
  cases x <;> simp [h]

theorem Part.absent {ks : Kids} {id : Nat} : Part ks id none [] := ⟨.nil, rfl, trivial, .nil, fun _ => rfl⟩

theorem Part.plain {ks : Kids} {id : Nat} {b : Bytes} {st : Bool} {l : Leaf} (he : ks.entry id = some (st, true, .leaf l))
    (hi : IsId (byteWidth id) id) (ha : (Payload.bytes b).Allowed l) :
    Part ks id (some ((Payload.bytes b).read ⟨0, 0, 0, 0⟩ (some l)).2) (element id b) := by
  refine ⟨Spec.plain id b, plain_bytes .., quiet_plain .., (plain_fine he hi ha).inside, fun acc => ?_⟩
  simp [Spec.plain, Tree.val, he]

theorem Part.group {ks : Kids} {id : Nat} {k : Tree} {st : Bool} {r : Wrap} {ks' : Kids}
    (he : ks.entry id = some (st, true, .master r ks')) (hi : IsId (byteWidth id) id)
    (hid : id ≠ Id.kCluster ∧ id ≠ Id.kBlockGroup) (hq : k.Quiet) (hk : k.FineIn ks') :
    Part ks id (some (k.val ks' .nil)) (element id k.bytes) := by
  refine ⟨Spec.group id k, group_bytes .., (quiet_group _ _).mpr ⟨hid, hq⟩, (group_fine _ he trivial hi hk).inside, fun acc => ?_⟩
  simp [Spec.group, Tree.val, he]

theorem Part.uint {ks : Kids} {id v : Nat} {bs : Bytes} {st : Bool} (h : IsUIntElement id v bs) (hv : v < 2 ^ 64)
    (he : ks.entry id = some (st, true, .leaf .uint)) (hi : IsId (byteWidth id) id) : Part ks id (some (.nat v)) bs := by
  obtain ⟨w, h1, h8, hf, rfl⟩ := h
  have hp := Part.plain (b := beBytes w v) he hi (by show (beBytes w v).length ≤ 8; rw [beBytes_length]; exact h8)
  have : ((Payload.bytes (beBytes w v)).read ⟨0, 0, 0, 0⟩ (some .uint)).2 = .nat v := by
    have hne : beBytes w v ≠ [] := by
      intro e
      have := congrArg List.length e
      rw [beBytes_length] at this
      simp at this; omega
    simp [Payload.read, Payload.value, hne, beVal_beBytes, Nat.mod_eq_of_lt (hf hv)]
  rw [this] at hp
  exact hp

theorem Part.sint {ks : Kids} {id : Nat} {v : Int} {bs : Bytes} {st : Bool} (h : IsIntElement id v bs)
    (hv : -2 ^ 63 ≤ v ∧ v < 2 ^ 63)
    (he : ks.entry id = some (st, true, .leaf .sint)) (hi : IsId (byteWidth id) id) :
    Part ks id (some (.nat (v % 2 ^ 64).toNat)) bs := by
  obtain ⟨w, h1, h8, hf, rfl⟩ := h
  have hl : (twosBytes w v).length = w := by simp [twosBytes]
  have hp := Part.plain (b := twosBytes w v) he hi (by show (twosBytes w v).length ≤ 8; rw [hl]; exact h8)
  have : ((Payload.bytes (twosBytes w v)).read ⟨0, 0, 0, 0⟩ (some .sint)).2 = .nat (v % 2 ^ 64).toNat := by
    have hne : twosBytes w v ≠ [] := by
      intro e
      have := congrArg List.length e
      rw [hl] at this
      simp at this; omega
    simp only [Payload.read, Payload.value, if_neg hne]
    rw [Web.twosVal_twosBytes h1 (hf hv.1 hv.2)]
  rw [this] at hp
  exact hp

/-- A number written without sign, read with one: there is a value. -/
theorem Part.reference {ks : Kids} {id v : Nat} {bs : Bytes} {st : Bool} (h : IsUIntElement id v bs)
    (he : ks.entry id = some (st, true, .leaf .sint)) (hi : IsId (byteWidth id) id) : ∃ x, Part ks id (some x) bs := by
  obtain ⟨w, h1, h8, hf, rfl⟩ := h
  exact ⟨_, Part.plain (b := beBytes w v) he hi (by show (beBytes w v).length ≤ 8; rw [beBytes_length]; exact h8)⟩

theorem signed_back {v : Int} (hv : -2 ^ 63 ≤ v ∧ v < 2 ^ 63) : signedOf 64 (v % 2 ^ 64).toNat = v := by
  unfold signedOf
  split <;> omega

/-! ### Blocks -/

/-- While the children of a cluster are read: its time is known, or will be when it begins. -/
def Inside (tc : Nat) (v : View) (told : Told) : Prop :=
  (told.begun = true ∧ (look v told.log).cluster = tc) ∨
  (told.begun = false ∧ natOr 0 (told.value.get Id.kTimecode) = tc)

theorem inside_announce {tc : Nat} {v : View} {told : Told} {me : Meta} (hme : me.id = Id.kCluster)
    (h : Inside tc v told) (m : Meta) :
    (told.announce (some me) m true).begun = true ∧ (look v (told.announce (some me) m true).log).cluster = tc ∧
    (look v (told.announce (some me) m true).log).seen = (look v told.log).seen := by
  rcases h with ⟨h1, h2⟩ | ⟨h1, h2⟩
  · simp [Told.announce, h1, View.step, h2]
  · simp [Told.announce, h1, View.step, hme, h2]

/-- Reading this element of a cluster shows this frame. -/
def ShowsBlock (tc : Nat) (t : Tree) (s : SeenFrame) : Prop :=
  ∀ (me : Meta) pos told v, me.id = Id.kCluster → Inside tc v told →
    (t.read takeAll (kidsOf gCluster) (some me) pos told).begun = true ∧
    (look v (t.read takeAll (kidsOf gCluster) (some me) pos told).log).cluster = tc ∧
    (look v (t.read takeAll (kidsOf gCluster) (some me) pos told).log).seen = (look v told.log).seen ++ [s]

/-- The element for a block with one frame. -/
def blockTree (id track : Nat) (rel : Int) (flags : UInt8) (frame : Bytes) : Tree :=
  .leaf id (sizeWidth (blockHead 1 track rel flags ++ frame).length) (.block 1 track rel flags [frame] frame) .nil

theorem blockTree_bytes (id track : Nat) (rel : Int) (flags : UInt8) (frame : Bytes) :
    (blockTree id track rel flags frame).bytes = element id (blockHead 1 track rel flags ++ frame) := by
  simp [blockTree, Tree.bytes, element, header, Payload.data]

theorem blockTree_fine {ks : Kids} {id track : Nat} {rel : Int} {flags : UInt8} {frame : Bytes} {st co simple : Bool}
    (he : ks.entry id = some (st, co, .leaf (.block simple))) (hi : IsId (byteWidth id) id) (ht : track ≤ 126)
    (hf : frame ≠ []) (hl : (flags &&& 6) >>> 1 = 0) : (blockTree id track rel flags frame).Fine ks := by
  intro s a
  refine ⟨hi, .inr rfl, ?_, trivial⟩
  rw [he]
  exact ⟨by decide, by decide, by omega, .inl ⟨hl, rfl⟩, by simpa using hf⟩

theorem rel_signed {n tc : Nat} (h1 : tc ≤ n) (h2 : n ≤ tc + 0x7FFF) :
    (tc : Int) + signedOf 16 (((n : Int) - tc) % 2 ^ 16).toNat = n := by
  unfold signedOf
  have : (((n : Int) - tc) % 2 ^ 16).toNat = n - tc := by omega
  rw [this, if_pos (by omega)]
  omega

theorem look_block (v : View) (m : Meta) (b : BlockVal) (frame : Bytes) :
    look v (blockCalls m b [frame]) = (View.step ({ v with block := b, held := [{ time := v.cluster + signedOf 16 b.timecode, track := b.track, data := frame, key := b.isKey }] } : View) (.blockEnd m b)) := by
  simp [blockCalls, frameCalls, View.step]

theorem simple_shows {tc scale : Nat} {f : Frame} (h1 : tc ≤ f.timestamp / scale) (h2 : f.timestamp / scale ≤ tc + 0x7FFF)
    (h3 : f.additional = none ∧ f.discardPadding = 0 ∧ f.duration = 0) :
    ShowsBlock tc (blockTree 0xA3 f.trackNumber ((f.timestamp / scale : Nat) - (tc : Int)) (if f.isKey then 0x80 else 0) f.frame)
      (f.asSeen scale) := by
  intro me pos told v hme hin
  have he : (kidsOf gCluster).entry 0xA3 = some (true, true, .leaf (.block true)) := rfl
  simp only [blockTree, Tree.read, takeAll, Bool.false_eq_true, if_false, he, Payload.read, Told.close]
  obtain ⟨a, b, c⟩ := inside_announce hme hin ⟨0xA3, byteWidth 0xA3 +
    sizeWidth (blockHead 1 f.trackNumber ((f.timestamp / scale : Nat) - (tc : Int)) (if f.isKey then 0x80 else 0) ++ f.frame).length,
    (Payload.block 1 f.trackNumber ((f.timestamp / scale : Nat) - (tc : Int)) (if f.isKey then 0x80 else 0) [f.frame] f.frame).data.length, pos⟩
  refine ⟨a, ?_, ?_⟩
  · rw [look_append, look_block]
    simp only [View.step, Id.kSimpleBlock, if_true, b]
  · rw [look_append, look_block]
    simp only [View.step, Id.kSimpleBlock, if_true, b, c]
    congr 1
    simp only [blockNamed, rel_signed h1 h2, Frame.asSeen, h3.1, h3.2.1, h3.2.2, Nat.zero_div]
    cases f.isKey <;> simp <;> decide

theorem additions_part {additional : Option Bytes} {addId : Nat} {bs : Bytes} (h : IsAdditions additional addId bs)
    (hi : additional ≠ none → addId < 2 ^ 64) (hne : additional ≠ some []) :
    ∃ x, Part (kidsOf gBlockGroup) Id.kBlockAdditions x bs ∧
      (match x.bind (·.get Id.kBlockMore) with
        | none => (none : Option (Nat × Bytes))
        | some more => some (natOr 1 (more.get Id.kBlockAddId), bytesOr (more.get Id.kBlockAdditional))) =
      additional.map fun a => (addId, a) := by
  cases additional with
  | none =>
    have : bs = [] := h
    subst this
    exact ⟨none, .absent, rfl⟩
  | some a =>
    obtain ⟨i, h1, rfl⟩ := h
    have ha : a ≠ [] := fun e => hne (by rw [e])
    obtain ⟨ti, b1, q1, f1, v1⟩ := Part.uint (ks := kidsOf gBlockMore) (st := false) h1 (hi (by simp)) rfl idOk
    obtain ⟨ta, b2, q2, f2, v2⟩ := Part.plain (ks := kidsOf gBlockMore) (id := 0xA5) (b := a) (st := false) (l := .bin) rfl idOk trivial
    obtain ⟨tm, b3, q3, f3, v3⟩ := Part.group (ks := kidsOf gBlockAdditions) (id := 0xA6) (k := ti.append ta)
      (st := false) (ks' := kidsOf gBlockMore) rfl idOk (by decide) ((quiet_append _ _).mpr ⟨q1, q2⟩) (f1.append f2)
    have hp := Part.group (ks := kidsOf gBlockGroup) (id := 0x75A1) (k := tm)
      (st := false) (ks' := kidsOf gBlockAdditions) rfl idOk (by decide) q3 f3
    refine ⟨_, by rw [b3, Tree.append_bytes, b1, b2] at hp; exact hp, ?_⟩
    rw [v3, val_append (f1 none), v1, v2]
    simp [Id.kBlockMore, Id.kBlockAddId, Id.kBlockAdditional, natOr, Payload.read, Payload.value, ha, bytesOr]

theorem group_shows {tc scale : Nat} {f : Frame} (h1 : tc ≤ f.timestamp / scale) (h2 : f.timestamp / scale ≤ tc + 0x7FFF)
    (hf : f.frame ≠ []) (ht : f.trackNumber ≤ 126) (hadd : f.additional ≠ some []) (hr : f.InRange)
    {additions padding reference duration : Bytes}
    (ha : IsAdditions f.additional f.addId additions)
    (hp : if f.discardPadding = 0 then padding = [] else IsIntElement 0x75A2 f.discardPadding padding)
    (hk : if f.isKey then reference = [] else IsUIntElement 0xFB (toU64 f.referenceBlockTimestamp / scale) reference)
    (hdur : if f.duration / scale = 0 then duration = [] else IsUIntElement 0x9B (f.duration / scale) duration) :
    ∃ t : Tree, t.bytes = element 0xA0 (element 0xA1 (blockHead 1 f.trackNumber
        ((f.timestamp / scale : Nat) - (tc : Int)) 0 ++ f.frame) ++
          (additions ++ (padding ++ (reference ++ duration)))) ∧
      t.Fine (kidsOf gCluster) ∧ ShowsBlock tc t (f.asSeen scale) := by
  obtain ⟨xa, ⟨ta, a1, a2, a3, a4⟩, a5⟩ := additions_part ha hr.addId hadd
  have hp' : ∃ x, Part (kidsOf gBlockGroup) Id.kDiscardPadding x padding ∧ signedOf 64 (natOr 0 x) = f.discardPadding := by
    split at hp
    · rename_i h0
      subst hp
      exact ⟨none, .absent, by rw [h0]; rfl⟩
    · exact ⟨_, Part.sint (st := false) hp hr.padding rfl idOk, signed_back hr.padding⟩
  have hk' : ∃ x, Part (kidsOf gBlockGroup) Id.kReferenceBlock x reference ∧ x.isNone = f.isKey := by
    split at hk
    · rename_i h0
      subst hk
      exact ⟨none, .absent, by rw [h0]; rfl⟩
    · rename_i h0
      obtain ⟨x, hx⟩ := Part.reference (ks := kidsOf gBlockGroup) (st := false) hk rfl idOk
      exact ⟨_, hx, by simpa using h0⟩
  have hd' : ∃ x, Part (kidsOf gBlockGroup) Id.kBlockDuration x duration ∧ natOr 0 x = f.duration / scale := by
    split at hdur
    · rename_i h0
      subst hdur
      exact ⟨none, .absent, h0.symm⟩
    · exact ⟨_, Part.uint (st := false) hdur (Nat.lt_of_le_of_lt (Nat.div_le_self _ _) hr.duration) rfl idOk, rfl⟩
  obtain ⟨xp, ⟨tp, p1, p2, p3, p4⟩, p5⟩ := hp'
  obtain ⟨xk, ⟨tk, k1, k2, k3, k4⟩, k5⟩ := hk'
  obtain ⟨xd, ⟨td, d1, d2, d3, d4⟩, d5⟩ := hd'
  have heb : (kidsOf gBlockGroup).entry 0xA1 = some (false, true, .leaf (.block false)) := rfl
  have hb : (blockTree 0xA1 f.trackNumber ((f.timestamp / scale : Nat) - (tc : Int)) 0 f.frame).Fine (kidsOf gBlockGroup) :=
    blockTree_fine heb idOk ht hf (by decide)
  generalize hrel : ((f.timestamp / scale : Nat) - (tc : Int)) = rel at *
  have hrest : (ta.append (tp.append (tk.append td))).FineIn (kidsOf gBlockGroup) :=
    a3.append (p3.append (k3.append d3))
  have hq : (ta.append (tp.append (tk.append td))).Quiet := by simp [a2, p2, k2, d2]
  refine ⟨group 0xA0 ((blockTree 0xA1 f.trackNumber rel 0 f.frame).append (ta.append (tp.append (tk.append td)))), ?_, ?_, ?_⟩
  · simp [a1, p1, k1, d1, blockTree_bytes]
  · exact group_fine gBlockGroup rfl trivial idOk (hb.inside.append hrest)
  · intro me pos told v hme hin
    generalize hkids : (blockTree 0xA1 f.trackNumber rel 0 f.frame).append (ta.append (tp.append (tk.append td))) = kids
    have he : (kidsOf gCluster).entry 0xA0 =
      some (true, true, .master { id := Id.kBlockGroup, start := .first, complete := true } (kidsOf gBlockGroup)) := rfl
    have hval : kids.val (kidsOf gBlockGroup) .nil =
        (ta.append (tp.append (tk.append td))).val (kidsOf gBlockGroup)
          (.cons 0xA1 (.block (blockNamed false f.trackNumber rel 0 1)) .nil) := by
      rw [← hkids, val_append (hb true none)]
      rfl
    rw [val_append (a3 none), val_append (p3 none), val_append (k3 none), a4, p4, k4, d4] at hval
    obtain ⟨a, b, c⟩ := inside_announce hme hin ⟨0xA0, byteWidth 0xA0 + sizeWidth kids.bytes.length, kids.bytes.length, pos⟩
    simp only [group, Tree.read, takeAll, Bool.and_false, Bool.false_eq_true, if_false, if_true, he, Told.close,
      reduceCtorEq, false_and, List.append_nil]
    have hinner : ∀ (q : Nat) (L : Log), look v (kids.read takeAll (kidsOf gBlockGroup) none q ⟨L, .nil, false⟩).log =
        { look v L with
          block := blockNamed false f.trackNumber rel 0 1
          held := [{ time := (look v L).cluster + signedOf 16 (rel % 2 ^ 16).toNat, track := f.trackNumber,
                     data := f.frame, key := false }] } := by
      intro q L
      rw [← hkids, read_append (hb true none), quiet_read v hq (by intro _ h; cases h)]
      simp only [blockTree, Tree.read, takeAll, Bool.false_eq_true, if_false, heb, Payload.read, Told.close,
        look_append, look_announce_none, look_block]
      simp [View.step, Id.kSimpleBlock, blockNamed]
    refine ⟨a, ?_, ?_⟩
    · rw [look_append, hinner]
      simp only [look_append, look_cons, look_nil, View.step, Id.kCluster, Id.kBlockGroup, if_true]
      simp only [Nat.reduceEqDiff, if_false]
      exact b
    · rw [look_append, hinner, read_value]
      simp only [look_append, look_cons, look_nil, View.step, Id.kCluster, Id.kBlockGroup, if_true]
      simp only [Nat.reduceEqDiff, if_false]
      rw [c, b]
      congr 1
      rw [← hrel, rel_signed h1 h2]
      have v1 : (kids.val (kidsOf gBlockGroup) .nil).get Id.kReferenceBlock = xk := by
        rw [hval, get_part_ne _ _ (by decide), get_part_eq]
        rw [get_part_ne _ _ (by decide), get_part_ne _ _ (by decide)]
        rfl
      have v2 : (kids.val (kidsOf gBlockGroup) .nil).get Id.kBlockDuration = xd := by
        rw [hval, get_part_eq]
        rw [get_part_ne _ _ (by decide), get_part_ne _ _ (by decide), get_part_ne _ _ (by decide)]
        rfl
      have v3 : (kids.val (kidsOf gBlockGroup) .nil).get Id.kDiscardPadding = xp := by
        rw [hval, get_part_ne _ _ (by decide), get_part_ne _ _ (by decide), get_part_eq]
        rw [get_part_ne _ _ (by decide)]
        rfl
      have v4 : (kids.val (kidsOf gBlockGroup) .nil).get Id.kBlockAdditions = xa := by
        rw [hval, get_part_ne _ _ (by decide), get_part_ne _ _ (by decide), get_part_ne _ _ (by decide), get_part_eq]
        rfl
      have v5 : additionsIn (kids.val (kidsOf gBlockGroup) .nil) = f.additional.map fun a => (f.addId, a) := by
        unfold additionsIn
        rw [v4]
        exact a5
      simp only [List.map_cons, List.map_nil, SeenFrame.inGroup, Frame.asSeen, v1, v2, v3, v5, p5, k5, d5]

/-- The tree of a block. -/
theorem block_tree {tc scale : Nat} {f : Frame} {bs : Bytes} (h : IsBlock tc scale f bs) (hr : f.InRange) :
    ∃ t : Tree, t.bytes = bs ∧ t.Fine (kidsOf gCluster) ∧ ShowsBlock tc t (f.asSeen scale) := by
  obtain ⟨h1, h2, h3, -, h5, h6, h7⟩ := h
  split at h7
  · rename_i h0
    refine ⟨_, (blockTree_bytes ..).trans h7.symm, ?_, simple_shows h1 h2 h0⟩
    refine blockTree_fine (st := true) (co := true) (simple := true) rfl idOk h5 h3 ?_
    split <;> decide
  · obtain ⟨a, p, r, d, ha, hp, hk, hd, rfl⟩ := h7
    exact group_shows h1 h2 h3 h5 h6 hr ha hp hk hd

/-- The tree of the blocks of a cluster. -/
theorem blocks_tree {tc scale : Nat} {fs : List Frame} {bs : Bytes} (h : Blocks tc scale fs bs) (hr : ∀ f ∈ fs, f.InRange) :
    ∃ t : Tree, t.bytes = bs ∧ t.Fine (kidsOf gCluster) ∧
      ∀ (me : Meta) pos told v, me.id = Id.kCluster → Inside tc v told →
        (fs ≠ [] ∨ told.begun = true → (t.read takeAll (kidsOf gCluster) (some me) pos told).begun = true) ∧
        (look v (t.read takeAll (kidsOf gCluster) (some me) pos told).log).seen =
          (look v told.log).seen ++ fs.map (Frame.asSeen scale) := by
  induction h with
  | nil => exact ⟨.nil, rfl, .nil, fun _ _ _ _ _ _ => ⟨fun h => h.elim (fun h => absurd rfl h) id, by simp [Tree.read]⟩⟩
  | cons h _ ih =>
    obtain ⟨ta, a1, a2, a3⟩ := block_tree h (hr _ (.head _))
    obtain ⟨tb, b1, b2, b3⟩ := ih fun f hf => hr f (.tail _ hf)
    refine ⟨ta.append tb, by rw [Tree.append_bytes, a1, b1], a2.append b2, fun me pos told v hme hin => ?_⟩
    obtain ⟨x1, x2, x3⟩ := a3 me pos told v hme hin
    rw [read_append (a2 true none)]
    obtain ⟨y1, y2⟩ := b3 me (pos + ta.bytes.length) _ v hme (.inl ⟨x1, x2⟩)
    exact ⟨fun _ => y1 (.inr x1), by rw [y2, x3]; simp⟩

/-! ### Clusters -/

/-- The tree of a cluster. -/
theorem cluster_tree {scale : Nat} {sized : Bool} {c : ClusterOf} {bs : Bytes} (h : IsCluster scale sized c bs)
    (hr : ∀ f ∈ c.frames, f.InRange) :
    ∃ t : Tree, t.bytes = bs ∧ (∀ a, t.follow a = some Id.kCluster) ∧
      (∀ s a, (sized = true ∨ s = false) → (∀ i ∈ a, (kidsOf gCluster).entry i = none) → t.Shaped (kidsOf gSegment) s a) ∧
      Shows (kidsOf gSegment) t (c.frames.map (Frame.asSeen scale)) ∧ ∀ i ∈ t.tops, i = Id.kCluster := by
  obtain ⟨body, ⟨w, blocks, w1, w8, hw, hb, rfl⟩, hne, rfl⟩ := h
  obtain ⟨tb, b1, b2, b3⟩ := blocks_tree hb hr
  have hf : (Spec.plain 0xE7 (beBytes w c.tc)).Fine (kidsOf gCluster) := plain_fine (st := false) (co := true) (l := .uint) rfl idOk
    (by show (beBytes w c.tc).length ≤ 8; rw [beBytes_length]; exact w8)
  refine ⟨.node Id.kCluster 8 sized ((Spec.plain 0xE7 (beBytes w c.tc)).append tb) .nil, ?_, fun _ => rfl, ?_, ?_, by simp [Tree.tops]⟩
  · have hid : beBytes (byteWidth Id.kCluster) Id.kCluster = clusterId := by decide +kernel
    simp only [Tree.bytes, header, hid, Tree.append_bytes, plain_bytes, b1, List.append_nil, List.append_assoc]
    cases sized with
    | true => rfl
    | false =>
      have : vint 8 (2 ^ (7 * 8) - 1) = sizeUnknown := by decide +kernel
      simp only [Bool.false_eq_true, if_false, this]
  · intro s a hs ha
    have he : (kidsOf gSegment).entry Id.kCluster =
      some (false, false, .master { id := Id.kCluster, start := .tagged, complete := true } (kidsOf gCluster)) := rfl
    refine ⟨idOk, .inl rfl, ?_, trivial⟩
    rw [he]
    cases sized with
    | true => exact (hf.append b2) true none
    | false =>
      rcases hs with hs | hs
      · cases hs
      · exact ⟨hs, rfl, ha, (hf.append b2) false _⟩
  · intro pos told v
    have he : (kidsOf gSegment).entry Id.kCluster =
      some (false, false, .master { id := Id.kCluster, start := .tagged, complete := true } (kidsOf gCluster)) := rfl
    have het : (kidsOf gCluster).entry 0xE7 = some (false, true, .leaf .uint) := rfl
    generalize hkids : (Spec.plain 0xE7 (beBytes w c.tc)).append tb = kids
    have hin : ∀ (m : Meta) q L, m.id = Id.kCluster →
        (kids.read takeAll (kidsOf gCluster) (some m) q ⟨L, .nil, false⟩).begun = true ∧
        (look v (kids.read takeAll (kidsOf gCluster) (some m) q ⟨L, .nil, false⟩).log).seen =
          (look v L).seen ++ c.frames.map (Frame.asSeen scale) := by
      intro m q L hm
      rw [← hkids, read_append (hf true none)]
      obtain ⟨y1, y2⟩ := b3 m (q + (Spec.plain 0xE7 (beBytes w c.tc)).bytes.length)
        ((Spec.plain 0xE7 (beBytes w c.tc)).read takeAll (kidsOf gCluster) (some m) q ⟨L, .nil, false⟩) v hm (.inr (by
          constructor
          · simp [Spec.plain, Tree.read, het, Told.close, Told.announce]
          · rw [read_value]
            have hne : beBytes w c.tc ≠ [] := by
              intro e
              have := congrArg List.length e
              rw [beBytes_length] at this
              simp at this; omega
            simp [Spec.plain, Tree.val, het, Id.kTimecode, Payload.read, Payload.value, hne, natOr, beVal_beBytes, Nat.mod_eq_of_lt hw]))
      refine ⟨y1 (.inl hne), y2.trans ?_⟩
      simp [Spec.plain, Tree.read, het, Told.close, Told.announce, Payload.read, View.step]
    simp only [Tree.read, takeAll, Bool.and_false, Bool.false_eq_true, if_false, he, Told.close, reduceCtorEq,
      List.append_nil, true_and, if_true]
    obtain ⟨z1, z2⟩ := hin ⟨Id.kCluster, byteWidth Id.kCluster + 8, if sized = true then kids.bytes.length else 2 ^ 64 - 1, pos⟩
      (pos + (byteWidth Id.kCluster + 8))
      (told.announce none ⟨Id.kCluster, byteWidth Id.kCluster + 8, if sized = true then kids.bytes.length else 2 ^ 64 - 1, pos⟩ false).log rfl
    rw [z1]
    simp only [reduceCtorEq, if_false, List.append_nil, look_append, look_cons, look_nil, View.step,
      Id.kCluster, Id.kBlockGroup, Nat.reduceEqDiff]
    refine z2.trans ?_
    rw [look_announce_none]

/-- The tree of the clusters of a file. -/
theorem clusters_tree {scale : Nat} {sized : Bool} {off : Nat} {cs : List (Nat × ClusterOf)} {bs : Bytes}
    (h : ClustersAt scale sized off cs bs) (hr : ∀ f ∈ clusterFrames cs, f.InRange) :
    ∃ t : Tree, t.bytes = bs ∧ (∀ a, (∀ i ∈ a, (kidsOf gCluster).entry i = none) →
        ∀ i ∈ t.follow a, (kidsOf gCluster).entry i = none) ∧
      (∀ s a, (sized = true ∨ s = false) → (∀ i ∈ a, (kidsOf gCluster).entry i = none) → t.Shaped (kidsOf gSegment) s a) ∧
      Shows (kidsOf gSegment) t ((clusterFrames cs).map (Frame.asSeen scale)) ∧ ∀ i ∈ t.tops, i = Id.kCluster := by
  induction h with
  | nil => exact ⟨.nil, rfl, fun _ h => h, fun _ _ _ _ => trivial, Tree.Quiet.shows trivial, by simp [Tree.tops]⟩
  | cons h _ ih =>
    obtain ⟨ta, a1, a2, a3, a4, a5⟩ := cluster_tree h fun f hf => hr f (by simp [clusterFrames, hf])
    obtain ⟨tb, b1, b2, b3, b4, b5⟩ := ih fun f hf => hr f (by simp only [clusterFrames] at hf ⊢; simp [hf])
    refine ⟨ta.append tb, by rw [Tree.append_bytes, a1, b1], ?_, ?_, ?_, fun i hi => (List.mem_append.mp (tops_append _ _ ▸ hi)).elim (a5 i) (b5 i)⟩
    · intro a _ i hi
      rw [Tree.follow_append, a2] at hi
      cases hi
      rfl
    · intro s a hs ha
      exact (a3 s _ hs (b2 a ha)).append (b3 s a hs ha)
    · have := Shows.append a4 b4 (a3 false none (.inr rfl) (by intro _ h; cases h))
      simpa [clusterFrames] using this

end Verif.Spec

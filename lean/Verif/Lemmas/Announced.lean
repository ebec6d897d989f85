/-
The settings of a file made with the muxer, as the callbacks of webm_parser are told.
-/
import Verif.Spec.Announced
import Verif.Lemmas.WebmDom
import Verif.Lemmas.FileTree

namespace Verif.Spec
open Verif Verif.Web Verif.Web.Id Verif.Mux Verif.Props

/-! ### The values of the parts of a tree -/

theorem values_append (ks : Kids) (a b : Tree) : (a.append b).values ks = a.values ks ++ b.values ks := by
  induction a with
  | nil => rfl
  | leaf id w p next ih => simp [Tree.append, Tree.values, ih]
  | node id w known kids next _ ih => simp [Tree.append, Tree.values, ih]

theorem completed_append (ks : Kids) (a b : Tree) : (a.append b).completed ks = a.completed ks ++ b.completed ks := by
  induction a with
  | nil => rfl
  | leaf id w p next ih => simp [Tree.append, Tree.completed, ih]
  | node id w known kids next _ ih => simp [Tree.append, Tree.completed, ih]

theorem values_seq_cons (ks : Kids) (t : Tree) (ts : List Tree) : (seq (t :: ts)).values ks = t.values ks ++ (seq ts).values ks :=
  values_append ks t (seq ts)

theorem values_seq_nil (ks : Kids) : (seq []).values ks = [] := rfl

theorem completed_seq_cons (ks : Kids) (t : Tree) (ts : List Tree) : (seq (t :: ts)).completed ks = t.completed ks ++ (seq ts).completed ks :=
  completed_append ks t (seq ts)

theorem byteWidth_fits (v : Nat) : v < 256 ^ byteWidth v := by
  induction v using Nat.strongRecOn with
  | _ v ih =>
    rw [byteWidth]
    split
    · omega
    · next h =>
      have := ih (v / 256) (Nat.div_lt_self (by omega) (by decide))
      rw [Nat.add_comm, Nat.pow_add, Nat.pow_one]
      omega

theorem beVal_byteWidth (v : Nat) : beVal (beBytes (byteWidth v) v) = v := by
  rw [beVal_beBytes, Nat.mod_eq_of_lt (byteWidth_fits v)]

/-- The values of several children with one ID. -/
def kidsWith (id : Nat) (vs : List Val) : List (Nat × Val) := vs.map fun v => (id, v)

theorem values_plain {ks : Kids} {id : Nat} {st : Bool} {l : Leaf} (he : ks.entry id = some (st, true, .leaf l)) (b : Bytes) :
    (plain id b).values ks = kidsWith id [(Payload.bytes b).worth l] := by
  simp [plain, Tree.values, he, kidsWith]

theorem values_number {ks : Kids} {id : Nat} {st : Bool} (he : ks.entry id = some (st, true, .leaf .uint)) (v : UInt64) :
    (number id v).values ks = kidsWith id [.nat v.toNat] := by
  rw [number, values_plain he]
  have h1 : beBytes (byteWidth v.toNat) v.toNat ≠ [] := beBytes_byteWidth_ne
  simp only [Payload.worth, Payload.value, h1, if_false, beVal_byteWidth]

theorem values_field {ks : Kids} {id : Nat} {st : Bool} (he : ks.entry id = some (st, true, .leaf .uint)) (v : Nat) :
    (plain id (beBytes (byteWidth v) v)).values ks = kidsWith id [.nat v] := by
  show (plain id (beBytes (byteWidth v) v)).values ks = _
  rw [values_plain he]
  have h1 : beBytes (byteWidth v) v ≠ [] := beBytes_byteWidth_ne
  simp only [Payload.worth, Payload.value, h1, if_false, beVal_byteWidth]

theorem values_unknown {ks : Kids} {id : Nat} (he : ks.entry id = none) (b : Bytes) : (plain id b).values ks = [] := by
  simp [plain, Tree.values, he]

theorem values_numberIf {ks : Kids} {id : Nat} {st : Bool} (he : ks.entry id = some (st, true, .leaf .uint)) (v : UInt64) :
    (numberIf id v).values ks = kidsWith id (if v = 0 then [] else [.nat v.toNat]) := by
  unfold numberIf
  split
  · rfl
  · exact values_number he v

theorem values_numberIf_unknown {ks : Kids} {id : Nat} (he : ks.entry id = none) (v : UInt64) :
    (numberIf id v).values ks = [] := by
  unfold numberIf
  split
  · rfl
  · exact values_unknown he _

theorem values_numberSet {ks : Kids} {id : Nat} {st : Bool} (he : ks.entry id = some (st, true, .leaf .uint)) (v : UInt64) :
    (numberSet id v).values ks = kidsWith id (if v = 0xFFFFFFFFFFFFFFFF then [] else [.nat v.toNat]) := by
  unfold numberSet
  split
  · rfl
  · exact values_number he v

theorem values_float {ks : Kids} {id : Nat} {st : Bool} (he : ks.entry id = some (st, true, .leaf .float)) (v : UInt32) :
    (float id v).values ks = kidsWith id [.float (some (4, v.toNat))] := by
  rw [float, values_plain he]
  have h1 : beBytes 4 v.toNat ≠ [] := by
    intro e; have := congrArg List.length e; rw [beBytes_length] at this; simp at this
  have h2 : v.toNat % 256 ^ 4 = v.toNat := Nat.mod_eq_of_lt (by have := v.toNat_lt; simpa using this)
  simp only [Payload.worth, Payload.value, h1, if_false, beVal_beBytes, beBytes_length, h2]

theorem values_luminance {ks : Kids} {id : Nat} {st : Bool} (he : ks.entry id = some (st, true, .leaf .float)) (v : UInt32) :
    (luminance id v).values ks = kidsWith id ((if v = 0x7F7FFFFF then none else some v).toList.map fun v => .float (some (4, v.toNat))) := by
  unfold luminance
  split
  · rfl
  · exact values_float he v

theorem values_text {ks : Kids} {id : Nat} {st : Bool} (he : ks.entry id = some (st, true, .leaf .str)) (o : Option Bytes) :
    (text id o).values ks = kidsWith id (o.toList.map fun b => if b = [] then .dflt else .bytes (dropNuls b)) := by
  cases o with
  | none => rfl
  | some b => exact values_plain he b

theorem values_text_bin {ks : Kids} {id : Nat} {st : Bool} (he : ks.entry id = some (st, true, .leaf .bin)) (o : Option Bytes) :
    (text id o).values ks = kidsWith id (o.toList.map fun b => if b = [] then .dflt else .bytes b) := by
  cases o with
  | none => rfl
  | some b => exact values_plain he b

theorem values_text_unknown {ks : Kids} {id : Nat} (he : ks.entry id = none) (o : Option Bytes) : (text id o).values ks = [] := by
  cases o with
  | none => rfl
  | some b => exact values_unknown he b

theorem values_group {ks : Kids} {id : Nat} {st : Bool} {g : Gram} (he : ks.entry id = some (st, true, g)) (hm : IsMaster g) (k : Tree) :
    (group id k).values ks = kidsWith id [contents g (group id k)] := by
  cases g with
  | leaf l => exact hm.elim
  | master r ks' => simp [group, Tree.values, he, kidsWith, contents]

/-- The value of a structure that may be left out. -/
def heldVals (g : Gram) : Tree → List Val
  | .nil => []
  | t => [contents g t]

theorem values_groupIf {ks : Kids} {id : Nat} {st : Bool} {g : Gram} (he : ks.entry id = some (st, true, g)) (hm : IsMaster g) (k : Tree) :
    (groupIf id k).values ks = kidsWith id (heldVals g (groupIf id k)) := by
  cases k with
  | nil => rfl
  | leaf i w p n => exact values_group he hm (.leaf i w p n)
  | node i w kn k n => exact values_group he hm (.node i w kn k n)

theorem values_optional {α : Type} {ks : Kids} {id : Nat} {g : Gram} {f : α → Tree} (o : Option α)
    (h : ∀ a, (f a).values ks = kidsWith id (heldVals g (f a))) :
    (Spec.optional f o).values ks = kidsWith id (heldVals g (Spec.optional f o)) := by
  cases o with
  | none => rfl
  | some a => exact h a

theorem values_each {α : Type} {ks : Kids} {id : Nat} {g : Gram} {f : α → Tree} (h : ∀ a, (f a).values ks = kidsWith id [contents g (f a)])
    (xs : List α) : (each f xs).values ks = kidsWith id (xs.map fun x => contents g (f x)) := by
  unfold each
  induction xs with
  | nil => rfl
  | cons x xs ih => rw [List.map_cons, values_seq_cons, ih, h]; rfl

/-! ### Members -/

theorem occ_append (i : Nat) (a b : List (Nat × Val)) : occurrences i (a ++ b) = occurrences i a ++ occurrences i b := by
  simp [occurrences]

theorem occ_same {i j : Nat} (h : (j == i) = true) (vs : List Val) : occurrences i (kidsWith j vs) = vs := by
  have h : j = i := by simpa using h
  subst h
  simp only [occurrences, kidsWith, List.filter_map, List.map_map]
  induction vs with
  | nil => rfl
  | cons v vs ih => simpa using ih

theorem occ_other {i j : Nat} (h : (j == i) = false) (vs : List Val) : occurrences i (kidsWith j vs) = [] := by
  simp only [occurrences, kidsWith, List.filter_map, List.map_map]
  have : ((fun x : Nat × Val => x.1 == i) ∘ fun v => (j, v)) = fun _ => false := by funext v; exact h
  rw [this]; simp

section
variable {whole : List (Nat × Slot)} {vals : List (Nat × Val)} {id : Nat}

theorem member_plain (hb : borrowed.lookup id = none) {o : List Val} (ho : occurrences id vals = o) (d : Val) :
    memberFor whole vals id (.one d false) = .one ((o.getLast?.map (orDefault d)).getD d) (o != []) := by
  simp only [memberFor, hb, single, ho]
  cases o.getLast? <;> rfl

theorem member_num (hb : borrowed.lookup id = none) {n : Nat} (ho : occurrences id vals = [.nat n]) (d : Val) :
    memberFor whole vals id (.one d false) = num n := by
  rw [member_plain hb ho]; rfl

theorem member_numIf (hb : borrowed.lookup id = none) {v : UInt64} (ho : occurrences id vals = if v = 0 then [] else [.nat v.toNat]) :
    memberFor whole vals id (.one (.nat 0) false) = numIf v := by
  rw [member_plain hb ho]
  by_cases h : v = 0
  · subst h; rfl
  · have e : (v != 0) = true := by simpa using h
    simp only [h, if_false, numIf, e]; rfl

theorem member_numSet (hb : borrowed.lookup id = none) {v : UInt64} (ho : occurrences id vals = if v = 0xFFFFFFFFFFFFFFFF then [] else [.nat v.toNat])
    (d : Nat) : memberFor whole vals id (.one (.nat d) false) = numSet d v := by
  rw [member_plain hb ho]
  by_cases h : v = 0xFFFFFFFFFFFFFFFF
  · subst h; rfl
  · simp [h, numSet, orDefault]

theorem member_flt (hb : borrowed.lookup id = none) {v : UInt32} (ho : occurrences id vals = [.float (some (4, v.toNat))]) (d : Val) :
    memberFor whole vals id (.one d false) = flt v := by
  rw [member_plain hb ho]; rfl

theorem member_fltIf (hb : borrowed.lookup id = none) {o : Option UInt32} (ho : occurrences id vals = o.toList.map fun v => .float (some (4, v.toNat))) :
    memberFor whole vals id (.one (.float (some (8, 0))) false) = fltIf o := by
  rw [member_plain hb ho]; cases o <;> rfl

theorem member_str (hb : borrowed.lookup id = none) {o : Option Bytes}
    (ho : occurrences id vals = o.toList.map fun b => if b = [] then .dflt else .bytes (dropNuls b)) (d : Bytes) :
    memberFor whole vals id (.one (.bytes d) false) = str d o := by
  rw [member_plain hb ho]
  cases o with
  | none => rfl
  | some b => by_cases h : b = [] <;> simp [h, str, orDefault]

theorem member_bin (hb : borrowed.lookup id = none) {o : Option Bytes}
    (ho : occurrences id vals = o.toList.map fun b => if b = [] then .dflt else .bytes b) :
    memberFor whole vals id (.one (.bytes []) false) = bin o := by
  rw [member_plain hb ho]
  cases o with
  | none => rfl
  | some b => by_cases h : b = [] <;> simp [h, bin, orDefault]

theorem member_absent (hb : borrowed.lookup id = none) (ho : occurrences id vals = []) (d : Val) :
    memberFor whole vals id (.one d false) = absent d := by
  rw [member_plain hb ho]; rfl

theorem contents_ne (g : Gram) (t : Tree) : contents g t ≠ .dflt := by
  unfold contents
  split
  · next ks _ _ _ kids _ => cases kids.values ks <;> simp [chain]
  · simp

theorem member_held (hb : borrowed.lookup id = none) {g : Gram} {t : Tree} (ho : occurrences id vals = heldVals g t) :
    memberFor whole vals id (.one .nil false) = held g t := by
  rw [member_plain hb ho]
  cases t with
  | nil => rfl
  | leaf => simp [heldVals, held, orDefault, contents_ne]
  | node => simp [heldVals, held, orDefault, contents_ne]

theorem member_many {o : List Val} (ho : occurrences id vals = o) (hd : ∀ v ∈ o, v ≠ .dflt) :
    memberFor whole vals id (.many []) = .many (o.map fun v => (v, true)) := by
  simp only [memberFor, ho]
  split
  · next h => subst h; rfl
  · congr 1
    exact List.map_congr_left fun v hv => by simp [orDefault, hd v hv]
end

/-! ### Structures -/

/-- What is in an element made of several parts. -/
theorem contents_group (r : Wrap) (ks : Kids) (id : Nat) (k : Tree) : contents (.master r ks) (group id k) = chain (k.values ks) := rfl

theorem struct_group {g : Gram} {r : Wrap} {ks : Kids} (hg : g = .master r ks) {i id : Nat} {k : Tree} {vals : List (Nat × Val)}
    (hv : k.values ks = vals) {s : List (Nat × Slot)} (hs : structFor i = s) :
    structOf i (contents g (group id k)) = s.map fun f => (f.1, memberFor s vals f.1 f.2) := by
  rw [hg, contents_group, hv, structOf_chain, structFrom, hs]

theorem cons_congr {i : Nat} {a b : Slot} {l l' : List (Nat × Slot)} (h : a = b) (h' : l = l') : (i, a) :: l = (i, b) :: l' := by rw [h, h']

theorem member_borrow {whole : List (Nat × Slot)} {vals : List (Nat × Val)} {id other : Nat} {d d2 x : Val} {p : Bool}
    (hb : borrowed.lookup id = some other) (hl : whole.lookup other = some (.one d2 p)) (ho : occurrences id vals = [])
    (hx : occurrences other vals = [x]) (hd : x ≠ .dflt) : memberFor whole vals id (.one d false) = absent x := by
  simp [memberFor, hb, hl, single, ho, hx, orDefault, hd, absent]

theorem member_size {whole : List (Nat × Slot)} {vals : List (Nat × Val)} {id other n : Nat} {d d2 : Val} {p : Bool} {v : UInt64}
    (hb : borrowed.lookup id = some other) (hl : whole.lookup other = some (.one d2 p))
    (ho : occurrences id vals = if v = 0 then [] else [.nat v.toNat])
    (hx : occurrences other vals = [.nat n]) :
    memberFor whole vals id (.one d false) = if v = 0 then absent (.nat n) else num v.toNat := by
  by_cases h : v = 0 <;> simp [memberFor, hb, hl, single, ho, hx, orDefault, absent, num, h]

/-- The values of one member, among the values of all. -/
macro "occ" : tactic => `(tactic| (simp (decide := true) only [occ_append, occ_same, occ_other, List.append_nil, List.nil_append]; try rfl))

/-- One member. -/
macro "member" : tactic => `(tactic| first
  | exact member_absent rfl (by occ) _
  | exact member_num rfl (by occ) _
  | exact member_numIf rfl (by occ)
  | exact member_numSet rfl (by occ) _
  | exact member_flt rfl (by occ) _
  | exact member_fltIf rfl (by occ)
  | exact member_str rfl (by occ) _
  | exact member_bin rfl (by occ)
  | exact member_held rfl (by occ))

/-- All members. -/
macro "members" : tactic => `(tactic| ((repeat refine cons_congr (by member) ?_); try rfl))

theorem audio_seen (a : AudioPart) : structOf kAudio (contents gAudio (audioTree a)) = audioSeen a := by
  refine (struct_group (vals := ?v) rfl ?h (s := sAudio) rfl).trans ?_
  case h =>
    simp only [values_seq_cons, values_seq_nil]
    rw [values_float rfl, values_number rfl, values_numberIf rfl]
  refine cons_congr (by member) (cons_congr ?_ (by members))
  exact member_borrow (other := kSamplingFrequency) rfl rfl (by occ) (by occ) (by simp)

theorem values_chroma {ks : Kids} {x y : Nat} {st st' : Bool} (hx : ks.entry x = some (st, true, .leaf .float))
    (hy : ks.entry y = some (st', true, .leaf .float)) (o : Option Chromaticity) :
    (Spec.optional (chromaTree x y) o).values ks = kidsWith x ((o.map (·.x)).toList.map fun v => .float (some (4, v.toNat))) ++
      kidsWith y ((o.map (·.y)).toList.map fun v => .float (some (4, v.toNat))) := by
  cases o with
  | none => rfl
  | some c =>
    show (seq [float x c.x, float y c.y]).values ks = _
    rw [values_seq_cons, values_seq_cons, values_seq_nil, values_float hx, values_float hy]; rfl

theorem values_floatIf {ks : Kids} {id : Nat} {st : Bool} (he : ks.entry id = some (st, true, .leaf .float)) (o : Option UInt32) :
    (Spec.optional (float id) o).values ks = kidsWith id (o.toList.map fun v => .float (some (4, v.toNat))) := by
  cases o with
  | none => rfl
  | some v => exact values_float he v

theorem groupIf_eq {id : Nat} {k : Tree} (h : groupIf id k ≠ .nil) : groupIf id k = group id k := by
  cases k with
  | nil => exact absurd rfl h
  | leaf => rfl
  | node => rfl

theorem mastering_seen (m : MasteringMetadata) (h : masteringTree m ≠ .nil) :
    structOf kMasteringMetadata (contents gMasteringMetadata (masteringTree m)) = masteringSeen m := by
  unfold masteringTree at h ⊢
  rw [groupIf_eq h]
  refine (struct_group (vals := ?v) rfl ?h (s := sMasteringMetadata) rfl).trans ?_
  case h =>
    simp only [values_seq_cons, values_seq_nil]
    rw [values_luminance rfl, values_luminance rfl, values_chroma rfl rfl, values_chroma rfl rfl, values_chroma rfl rfl, values_chroma rfl rfl]
  members

theorem held_optional {α : Type} {ks : Kids} {id : Nat} {st : Bool} {g : Gram} {f : α → Tree} (o : Option α)
    (he : ks.entry id = some (st, true, g)) (hm : IsMaster g) (h : ∀ a, ∃ k, f a = groupIf id k ∨ f a = group id k) :
    (Spec.optional f o).values ks = kidsWith id (heldVals g (Spec.optional f o)) := by
  refine values_optional o fun a => ?_
  obtain ⟨k, h1 | h1⟩ := h a
  · rw [h1]; exact values_groupIf he hm k
  · rw [h1]; exact values_group he hm k

theorem colour_seen (c : Colour) (h : colourTree c ≠ .nil) : structOf kColour (contents gColour (colourTree c)) = colourSeen c := by
  unfold colourTree at h ⊢
  rw [groupIf_eq h]
  refine (struct_group (vals := ?v) rfl ?h (s := sColour) rfl).trans ?_
  case h =>
    have hm : (Spec.optional masteringTree c.mastering).values (kidsOf gColour) = kidsWith 0x55D0 (heldVals gMasteringMetadata (Spec.optional masteringTree c.mastering)) :=
      held_optional (st := false) _ rfl trivial fun m => ⟨_, .inl rfl⟩
    change Tree.values (kidsOf gColour) _ = _
    simp only [values_seq_cons, values_seq_nil]
    rw [values_numberSet rfl, values_numberSet rfl, values_numberSet rfl, values_numberSet rfl, values_numberSet rfl, values_numberSet rfl,
      values_numberSet rfl, values_numberSet rfl, values_numberSet rfl, values_numberSet rfl, values_numberSet rfl, values_numberSet rfl,
      values_numberSet rfl, hm]
  members

theorem projection_seen (p : Projection) : structOf kProjection (contents gProjection (projectionTree p)) = projectionSeen p := by
  refine (struct_group (vals := ?v) rfl ?h (s := sProjection) rfl).trans ?_
  case h =>
    simp only [values_seq_cons, values_seq_nil]
    rw [values_number rfl, values_text_bin rfl, values_float rfl, values_float rfl, values_float rfl]
  members

theorem video_seen (v : VideoPart) : structOf kVideo (contents gVideo (videoTree v)) = videoSeen v := by
  refine (struct_group (vals := ?v) rfl ?h (s := sVideo) rfl).trans ?_
  case h =>
    have hc : (Spec.optional colourTree v.colour).values (kidsOf gVideo) = kidsWith 0x55B0 (heldVals gColour (Spec.optional colourTree v.colour)) :=
      held_optional (st := false) _ rfl trivial fun m => ⟨_, .inl rfl⟩
    have hp : (Spec.optional projectionTree v.projection).values (kidsOf gVideo) = kidsWith 0x7670 (heldVals gProjection (Spec.optional projectionTree v.projection)) :=
      held_optional (st := false) _ rfl trivial fun m => ⟨_, .inr rfl⟩
    change Tree.values (kidsOf gVideo) _ = _
    simp only [values_seq_cons, values_seq_nil]
    rw [values_number rfl, values_number rfl, values_numberIf rfl, values_numberIf rfl, values_numberIf rfl, values_numberIf rfl,
      values_numberIf rfl, values_numberIf rfl, values_numberIf rfl, values_numberIf rfl, values_text_unknown rfl, values_floatIf rfl,
      hc, hp]
  refine cons_congr (by member) (cons_congr (by member) (cons_congr (by member) (cons_congr (by member) (cons_congr (by member)
    (cons_congr (by member) (cons_congr (by member) (cons_congr (by member) (cons_congr (by member) (cons_congr ?_ (cons_congr ?_ (by members)))))))))))
  · exact member_size (other := kPixelWidth) rfl rfl (by occ) (by occ)
  · exact member_size (other := kPixelHeight) rfl rfl (by occ) (by occ)

theorem aes_seen (e : ContentEncoding) : structOf kContentEncAesSettings (contents gContentEncAesSettings (aesTree e)) = aesSeen e := by
  refine (struct_group (vals := ?v) rfl ?h (s := sContentEncAesSettings) rfl).trans ?_
  case h => rw [values_number rfl]
  members

theorem encryption_seen (e : ContentEncoding) : structOf kContentEncryption (contents gContentEncryption (encryptionTree e)) = encryptionSeen e := by
  refine (struct_group (vals := ?v) rfl ?h (s := sContentEncryption) rfl).trans ?_
  case h =>
    simp only [values_seq_cons, values_seq_nil]
    rw [values_number rfl, values_text_bin rfl, aesTree, values_group (g := gContentEncAesSettings) (st := false) rfl trivial]
  members

theorem encoding_seen (e : ContentEncoding) : structOf kContentEncoding (contents gContentEncoding (encodingTree e)) = encodingSeen e := by
  refine (struct_group (vals := ?v) rfl ?h (s := sContentEncoding) rfl).trans ?_
  case h =>
    simp only [values_seq_cons, values_seq_nil]
    rw [values_number rfl, values_number rfl, values_number rfl, values_group (g := gContentEncryption) (st := false) rfl trivial]
  members

theorem member_each {whole : List (Nat × Slot)} {vals : List (Nat × Val)} {id : Nat} {α : Type} {f : α → Tree} {g : Gram} {xs : List α}
    (ho : occurrences id vals = xs.map fun x => contents g (f x)) :
    memberFor whole vals id (.many []) = .many (xs.map fun x => (contents g (f x), true)) := by
  rw [member_many ho (by
    intro v hv
    obtain ⟨x, -, rfl⟩ := List.mem_map.mp hv
    exact contents_ne _ _), List.map_map]
  rfl

theorem member_none {whole : List (Nat × Slot)} {vals : List (Nat × Val)} {id : Nat} (ho : occurrences id vals = []) :
    memberFor whole vals id (.many []) = .many [] := member_many ho (by simp)

theorem encodings_seen (es : List ContentEncoding) (h : es ≠ []) :
    structOf kContentEncodings (contents gContentEncodings (groupIf 0x6D80 (each encodingTree es))) = encodingsSeen es := by
  have hne : groupIf 0x6D80 (each encodingTree es) = group 0x6D80 (each encodingTree es) := by
    cases es with
    | nil => exact absurd rfl h
    | cons e es => rfl
  rw [hne]
  refine (struct_group (vals := ?v) rfl ?h (s := sContentEncodings) rfl).trans ?_
  case h =>
    have he : ∀ e, (encodingTree e).values (kidsOf gContentEncodings) = kidsWith 0x6240 [contents gContentEncoding (encodingTree e)] := fun e => values_group (st := false) (by rfl) (by trivial) _
    exact values_each he es
  exact cons_congr (member_each (by occ)) rfl

theorem track_values (t : Track) : ∃ vals, (seq [number 0xD7 t.number, number 0x73C5 t.uid, number 0x83 t.type,
    numberIf 0x55EE t.maxBlockAdditionalId, numberIf 0x56AA t.codecDelay, numberIf 0x56BB t.seekPreRoll,
    numberIf 0x23E383 t.defaultDuration, text 0x86 t.codecId, text 0x63A2 t.codecPrivate,
    text 0x22B59C t.language, text 0x536E t.name, groupIf 0x6D80 (each encodingTree t.encodings),
    partTree t.part]).values (kidsOf gTrackEntry) = vals ∧
    sTrackEntry.map (fun f => (f.1, memberFor sTrackEntry vals f.1 f.2)) = trackSeen t := by
  refine ⟨_, by
    simp only [values_seq_cons, values_seq_nil]
    rw [values_number rfl, values_number rfl, values_number rfl, values_numberIf_unknown rfl, values_numberIf rfl, values_numberIf rfl,
      values_numberIf rfl, values_text rfl, values_text_bin rfl, values_text rfl, values_text rfl,
      values_groupIf (g := gContentEncodings) (st := false) rfl trivial], ?_⟩
  cases hp : t.part with
  | plain =>
    rw [show (partTree .plain).values (kidsOf gTrackEntry) = [] from rfl]
    unfold trackSeen
    rw [hp]
    members
  | video v =>
    rw [show (partTree (.video v)).values (kidsOf gTrackEntry) = kidsWith kVideo (heldVals gVideo (videoTree v)) from
      values_group (g := gVideo) (st := false) rfl trivial _]
    unfold trackSeen
    rw [hp]
    members
  | audio a =>
    rw [show (partTree (.audio a)).values (kidsOf gTrackEntry) = kidsWith kAudio (heldVals gAudio (audioTree a)) from
      values_group (g := gAudio) (st := false) rfl trivial _]
    unfold trackSeen
    rw [hp]
    members

theorem display_seen (d : Display) : structOf kChapterDisplay (contents gChapterDisplay (displayTree d)) = displaySeen d := by
  refine (struct_group (vals := ?v) rfl ?h (s := sChapterDisplay) rfl).trans ?_
  case h =>
    simp only [values_seq_cons, values_seq_nil]
    rw [values_text rfl, values_text rfl, values_text rfl]
  refine cons_congr (by member) (cons_congr ?_ (cons_congr ?_ rfl))
  · simp only [memberFor]
    rw [show occurrences kChapLanguage _ = d.language.toList.map (fun b => if b = [] then .dflt else .bytes (dropNuls b)) from by occ]
    cases d.language with
    | none => rfl
    | some b => by_cases hb : b = [] <;> simp [hb, orDefault] <;> decide +kernel
  · simp only [memberFor]
    rw [show occurrences kChapCountry _ = d.country.toList.map (fun b => if b = [] then .dflt else .bytes (dropNuls b)) from by occ]
    cases d.country with
    | none => rfl
    | some b => by_cases hb : b = [] <;> simp [hb, orDefault] <;> decide +kernel

theorem chapter_seen (c : Chapter) :
    structOf kChapterAtom (contents (gChapterAtom maxRecursionDepth true) (chapterTree c)) = chapterSeen c := by
  refine (struct_group (vals := ?v) rfl ?h (s := sChapterAtom) rfl).trans ?_
  case h =>
    have hd : ∀ d, (displayTree d).values (kidsOf (gChapterAtom maxRecursionDepth true)) = kidsWith 0x80 [contents gChapterDisplay (displayTree d)] :=
      fun e => values_group (st := false) (by rfl) (by trivial) _
    have hd : (each displayTree c.displays).values (kidsOf (gChapterAtom maxRecursionDepth true)) = kidsWith 0x80 (c.displays.map fun d => contents gChapterDisplay (displayTree d)) :=
      values_each hd c.displays
    change Tree.values (kidsOf (gChapterAtom maxRecursionDepth true)) _ = _
    simp only [values_seq_cons, values_seq_nil]
    rw [values_text rfl, values_number rfl, values_number rfl, values_number rfl, hd]
  refine cons_congr (by member) (cons_congr (by member) (cons_congr (by member) (cons_congr (by member) (cons_congr ?_ (cons_congr ?_ rfl)))))
  · exact member_each (by occ)
  · exact member_none (by occ)

theorem edition_seen (cs : List Chapter) : structOf kEditionEntry (contents gEditionEntry (group 0x45B9 (each chapterTree cs))) = editionSeen cs := by
  refine (struct_group (vals := ?v) rfl ?h (s := sEditionEntry) rfl).trans ?_
  case h =>
    have he : ∀ e, (chapterTree e).values (kidsOf gEditionEntry) = kidsWith 0xB6 [contents (gChapterAtom maxRecursionDepth true) (chapterTree e)] := fun e => values_group (st := false) (by rfl) (by trivial) _
    exact values_each he cs
  exact cons_congr (member_each (by occ)) rfl

theorem simpleTag_seen (t : SimpleTag) :
    structOf kSimpleTag (contents (gSimpleTag maxRecursionDepth true) (simpleTagTree t)) = simpleTagSeen t := by
  refine (struct_group (vals := ?v) rfl ?h (s := sSimpleTag) rfl).trans ?_
  case h =>
    simp only [values_seq_cons, values_seq_nil]
    rw [values_text rfl, values_text rfl]
  refine cons_congr (by member) (cons_congr (by member) (cons_congr (by member) (cons_congr (by member) (cons_congr (by member) (cons_congr ?_ rfl)))))
  exact member_none (by occ)

theorem tag_seen (t : Tag) : structOf kTag (contents gTag (group 0x7373 (each simpleTagTree t))) = tagSeen t := by
  refine (struct_group (vals := ?v) rfl ?h (s := sTag) rfl).trans ?_
  case h =>
    have he : ∀ e, (simpleTagTree e).values (kidsOf gTag) = kidsWith 0x67C8 [contents (gSimpleTag maxRecursionDepth true) (simpleTagTree e)] := fun e => values_group (st := false) (by rfl) (by trivial) _
    exact values_each he t
  refine cons_congr (by member) (cons_congr ?_ rfl)
  exact member_each (by occ)

theorem values_fields_cons (ks : Kids) (i : Nat) (b : Bytes) (fs : List (Nat × Bytes)) :
    (fieldsTree ((i, b) :: fs)).values ks = (plain i b).values ks ++ (fieldsTree fs).values ks := values_append ks _ _

theorem ebml_seen (docType : Bytes) : structOf kEbml (contents gEbml (ebmlTree docType)) = ebmlSeen docType := by
  refine (struct_group (vals := ?v) rfl ?h (s := sEbml) rfl).trans ?_
  case h =>
    simp only [uintField, values_fields_cons]
    rw [values_field rfl, values_field rfl, values_field rfl, values_field rfl, show plain 0x4282 docType = text 0x4282 (some docType) from rfl,
      values_text rfl, values_field rfl, values_field rfl, show (fieldsTree []).values _ = [] from rfl]
  members

theorem worth_date (d : Int) : (Payload.bytes (twosBytes 8 d)).worth .date = .nat (d % 2 ^ 64).toNat := by
  have h : twosBytes 8 d ≠ [] := by
    intro e
    have := congrArg List.length e
    simp [twosBytes] at this
  simp only [Payload.worth, Payload.value, h, if_false]
  rw [twosBytes, beVal_beBytes, Nat.mod_eq_of_lt (by omega)]

theorem worth_float (d : Nat) : (Payload.bytes (beBytes 4 d)).worth .float = .float (some (4, d % 2 ^ 32)) := by
  have h : beBytes 4 d ≠ [] := by
    intro e
    have := congrArg List.length e
    simp at this
  simp only [Payload.worth, Payload.value, h, if_false]
  rw [beVal_beBytes, beBytes_length]

theorem values_optionals {α : Type} {ks : Kids} {id : Nat} {st : Bool} {l : Leaf} (he : ks.entry id = some (st, true, .leaf l)) (f : α → Bytes)
    {v : α → Val} (hv : ∀ d, (Payload.bytes (f d)).worth l = v d) (o : Option α) (fs : List (Nat × Bytes)) : (fieldsTree ((o.toList.map fun d => (id, f d)) ++ fs)).values ks =
      kidsWith id (o.toList.map v) ++ (fieldsTree fs).values ks := by
  cases o with
  | none => rfl
  | some d =>
    refine (values_fields_cons ..).trans ?_
    rw [values_plain he, hv]; rfl

theorem info_seen (scale : Nat) (duration : Option Nat) (date : Option Int) (muxing writing : Bytes) :
    structOf kInfo (contents gInfo (infoTree scale duration date muxing writing)) = infoSeen scale duration date muxing writing := by
  refine (struct_group (vals := ?v) rfl ?h (s := sInfo) rfl).trans ?_
  case h =>
    simp only [infoFields, uintField, List.cons_append, List.append_assoc, values_fields_cons]
    rw [values_field rfl, values_optionals (l := .float) rfl _ worth_float, values_optionals (l := .date) rfl _ worth_date, values_fields_cons, values_fields_cons,
      show plain 0x4D80 muxing = text 0x4D80 (some muxing) from rfl, show plain 0x5741 writing = text 0x5741 (some writing) from rfl,
      values_text rfl, values_text rfl, show (fieldsTree []).values _ = [] from rfl]
  refine cons_congr (by member) (cons_congr ?_ (cons_congr ?_ (by members)))
  · cases duration with
    | none => exact member_absent rfl (by occ) _
    | some d => exact member_plain rfl (o := [.float (some (4, d % 2 ^ 32))]) (by occ) _
  · cases date with
    | none => exact member_absent rfl (by occ) _
    | some d => exact member_num rfl (by occ) _

/-! ### What is announced -/

mutual
/-- Nothing below a parser is one of the structures with settings. -/
def gramMute : Gram → Bool
  | .leaf _ => true
  | .master _ ks => kidsMute ks
/-- The same of the children of a parser. -/
def kidsMute : Kids → Bool
  | .nil => true
  | .cons id _ _ g rest => !aboutSettings id && gramMute g && kidsMute rest
end

theorem kidsMute_entry {ks : Kids} (h : kidsMute ks = true) {id : Nat} {st co : Bool} {g : Gram} (he : ks.entry id = some (st, co, g)) :
    gramMute g = true ∧ (aboutSettings id = false) := by
  match ks with
  | .nil =>
    simp only [Kids.entry] at he
    split at he
    · next h => cases he; subst h; exact ⟨rfl, rfl⟩
    · cases he
  | .cons i st' co' g' rest =>
    simp only [kidsMute, Bool.and_eq_true, Bool.not_eq_true'] at h
    simp only [Kids.entry] at he
    split at he
    · next h' => cases he; subst h'; exact ⟨h.1.2, h.1.1⟩
    · exact kidsMute_entry h.2 he

theorem mute_completed (t : Tree) : ∀ ks, kidsMute ks = true → ∀ x ∈ t.completed ks, aboutSettings x.1 = false := by
  induction t with
  | nil => intro ks _ x hx; cases hx
  | leaf id w p next ih => exact ih
  | node id w known kids next ihk ih =>
    intro ks h x hx
    simp only [Tree.completed, List.mem_append] at hx
    rcases hx with hx | hx
    · split at hx
      · next he =>
        obtain ⟨h1, h2⟩ := kidsMute_entry h he
        rcases List.mem_append.mp hx with hx | hx
        · exact ihk _ h1 x hx
        · split at hx
          · simp only [List.mem_singleton] at hx
            subst hx; exact h2
          · cases hx
      · cases hx
    · exact ih ks h x hx

/-- What is announced of a sequence of elements. -/
def announced (ks : Kids) (t : Tree) : List (Nat × List (Nat × Slot)) :=
  ((t.completed ks).filter fun x => aboutSettings x.1).map fun x => (x.1, structFrom x.1 x.2)

theorem announced_append (ks : Kids) (a b : Tree) : announced ks (a.append b) = announced ks a ++ announced ks b := by
  simp [announced, completed_append]

/-- Elements that announce nothing. -/
def entryMute (ks : Kids) (i : Nat) : Bool :=
  match ks.entry i with
  | some (_, _, g) => gramMute g && !aboutSettings i
  | none => true

theorem announced_tops {ks : Kids} {t : Tree} (h : ∀ i ∈ t.tops, entryMute ks i = true) : announced ks t = [] := by
  have : ∀ x ∈ t.completed ks, aboutSettings x.1 = false := by
    induction t with
    | nil => intro x hx; cases hx
    | leaf id w p next ih => exact ih fun i hi => h i (.tail _ hi)
    | node id w known kids next _ ih =>
      intro x hx
      simp only [Tree.completed, List.mem_append] at hx
      rcases hx with hx | hx
      · have h0 := h id (.head _)
        unfold entryMute at h0
        split at hx
        · next he =>
          rw [he] at h0
          simp only [Bool.and_eq_true, Bool.not_eq_true'] at h0
          rcases List.mem_append.mp hx with hx | hx
          · exact mute_completed kids _ h0.1 x hx
          · split at hx
            · simp only [List.mem_singleton] at hx
              subst hx; exact h0.2
            · cases hx
        · cases hx
      · exact ih (fun i hi => h i (.tail _ hi)) x hx
  unfold announced
  rw [List.filter_eq_nil_iff.mpr fun x hx => by simp [this x hx]]
  rfl

theorem announced_unit {ks ks' : Kids} {id : Nat} {st co : Bool} {r : Wrap} (he : ks.entry id = some (st, co, .master r ks'))
    (hr : r.complete = true) (ha : aboutSettings id = true) (hm : kidsMute ks' = true) (k : Tree) :
    announced ks (group id k) = [(id, structFrom id (k.values ks'))] := by
  have h : (k.completed ks').filter (fun x => aboutSettings x.1) = [] :=
    List.filter_eq_nil_iff.mpr fun x hx => by simp [mute_completed k _ hm x hx]
  simp [announced, group, Tree.completed, he, hr, h, ha]

theorem announced_list {ks ks' : Kids} {id : Nat} {st co : Bool} {r : Wrap} (he : ks.entry id = some (st, co, .master r ks'))
    (ha : aboutSettings id = false) (k : Tree) : announced ks (group id k) = announced ks' k := by
  simp only [announced, group, Tree.completed, he, List.append_nil, List.filter_append]
  split <;> simp [ha]

theorem announced_each {α : Type} {ks : Kids} {f : α → Tree} {y : α → Nat × List (Nat × Slot)} (h : ∀ a, announced ks (f a) = [y a]) (xs : List α) :
    announced ks (each f xs) = xs.map y := by
  induction xs with
  | nil => rfl
  | cons x xs ih => rw [each_cons, announced_append, ih, h]; rfl

theorem structFrom_contents {g : Gram} {r : Wrap} {ks : Kids} (hg : g = .master r ks) (i id : Nat) (k : Tree) :
    structFrom i (k.values ks) = structOf i (contents g (group id k)) := by
  rw [hg, contents_group, structOf_chain]

theorem announced_ebml (docType : Bytes) : announced topKids (ebmlTree docType) = [(kEbml, ebmlSeen docType)] := by
  refine (announced_unit (ks' := kidsOf gEbml) (co := false) rfl rfl rfl (by decide +kernel) _).trans ?_
  exact congrArg (fun x => [(_, x)]) ((structFrom_contents (g := gEbml) rfl _ 0x1A45DFA3 _).trans (ebml_seen ..))

theorem announced_info (scale : Nat) (duration : Option Nat) (date : Option Int) (muxing writing : Bytes) :
    announced (kidsOf gSegment) (infoTree scale duration date muxing writing) = [(kInfo, infoSeen scale duration date muxing writing)] := by
  refine (announced_unit (ks' := kidsOf gInfo) (co := false) rfl rfl rfl (by decide +kernel) _).trans ?_
  exact congrArg (fun x => [(_, x)]) ((structFrom_contents (g := gInfo) rfl _ 0x1549A966 _).trans (info_seen ..))

theorem announced_tracks (ts : List Track) : announced (kidsOf gSegment) (tracksTree ts) = ts.map fun t => (kTrackEntry, trackSeen t) := by
  refine (announced_list (ks' := kidsOf gTracks) (co := false) rfl rfl _).trans (announced_each (fun t => ?_) ts)
  refine (announced_unit (ks' := kidsOf gTrackEntry) (co := false) rfl rfl rfl (by decide +kernel) _).trans ?_
  obtain ⟨vals, h1, h2⟩ := track_values t
  rw [h1, structFrom, ← h2]
  rfl

theorem announced_chapters (cs : List Chapter) : announced (kidsOf gSegment) (chaptersTree cs) = [(kEditionEntry, editionSeen cs)] := by
  refine (announced_list (ks' := kidsOf gChapters) (co := false) rfl rfl _).trans ?_
  refine (announced_unit (ks' := kidsOf gEditionEntry) (co := false) rfl rfl rfl (by decide +kernel) _).trans ?_
  exact congrArg (fun x => [(_, x)]) ((structFrom_contents (g := gEditionEntry) rfl _ 0x45B9 _).trans (edition_seen ..))

theorem announced_tags (tg : List Tag) : announced (kidsOf gSegment) (tagsTree tg) = tg.map fun t => (kTag, tagSeen t) := by
  refine (announced_list (ks' := kidsOf gTags) (co := false) rfl rfl _).trans (announced_each (fun t => ?_) tg)
  refine (announced_unit (ks' := kidsOf gTag) (co := false) rfl rfl rfl (by decide +kernel) _).trans ?_
  exact congrArg (fun x => [(_, x)]) ((structFrom_contents (g := gTag) rfl _ 0x7373 _).trans (tag_seen ..))

theorem file_announced {docType : Bytes} {known : Bool} {t : Tree} {ts : List Track} {ch : Option (List Chapter)} {tg : Option (List Tag)} {scale : Nat}
    {duration : Option Nat} {date : Option Int} {muxing writing : Bytes} (h : t.Around (settingsTree ts ch tg scale duration date muxing writing)) :
    announced topKids (fileTree docType known t) = settingsSeen docType scale duration date muxing writing ts ch tg := by
  obtain ⟨a, b, ha, hb, rfl⟩ := h
  have he : topKids.entry 0x18538067 =
      some (false, false, .master { id := Id.kSegment, start := .first, complete := true } (kidsOf gSegment)) := rfl
  have h1 : ∀ t : Tree, announced topKids (.node 0x18538067 8 known t .nil) = announced (kidsOf gSegment) t := by
    intro t
    simp [announced, Tree.completed, he, show aboutSettings 0x18538067 = false from rfl]
  have h2 : announced (kidsOf gSegment) a = [] := announced_tops fun i hi => by
    rcases List.mem_cons.mp (ha i hi) with rfl | h
    · rfl
    · rw [List.mem_singleton] at h; subst h; decide +kernel
  have h3 : announced (kidsOf gSegment) b = [] := announced_tops fun i hi => by
    rcases List.mem_cons.mp (hb i hi) with rfl | h
    · decide +kernel
    · rw [List.mem_singleton] at h; subst h; decide +kernel
  have h4 : announced (kidsOf gSegment) (Spec.optional chaptersTree ch) = ch.toList.map (fun cs => (kEditionEntry, editionSeen cs)) := by
    cases ch with
    | none => rfl
    | some c => exact announced_chapters c
  have h5 : announced (kidsOf gSegment) (Spec.optional tagsTree tg) = (tg.getD []).map (fun t => (kTag, tagSeen t)) := by
    cases tg with
    | none => rfl
    | some c => exact announced_tags c
  rw [fileTree, announced_append, h1]
  simp only [announced_append, settingsTree, announced_ebml, announced_info, announced_tracks, h2, h3, h4, h5, settingsSeen]
  simp

end Verif.Spec

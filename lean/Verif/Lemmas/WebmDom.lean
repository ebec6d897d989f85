/-
The structures handed to the callbacks hold what the document says.
-/
import Verif.Spec.WebmDom
import Verif.Props.WebmDocument

namespace Verif.Props
open Verif Verif.Web Verif.Web.Id Verif.Spec

/-! ### From the children to the structure -/

/-- A structure as it is at first: no ID twice, nothing present, at most one item in a repeated member, no default missing. -/
structure Tidy (s : List (Nat × Slot)) : Prop where
  nodup : (s.map (·.1)).Nodup
  slots : ∀ f ∈ s, (∃ d, d ≠ .dflt ∧ f.2 = .one d false) ∨ f.2 = .many [] ∨ ∃ d, d ≠ .dflt ∧ f.2 = .many [(d, false)]

/-- Whether it is so, computed. -/
def tidy (s : List (Nat × Slot)) : Bool :=
  (s.map (·.1)).Nodup && s.all fun f => match f.2 with
    | .one d p => d != .dflt && !p
    | .many [] => true
    | .many [(d, p)] => d != .dflt && !p
    | .many _ => false

theorem tidy_spec {s : List (Nat × Slot)} (h : tidy s = true) : Tidy s := by
  simp only [tidy, Bool.and_eq_true, decide_eq_true_eq, List.all_eq_true] at h
  refine ⟨h.1, fun f hf => ?_⟩
  have h1 := h.2 f hf
  obtain ⟨i, sl⟩ := f
  match sl, h1 with
  | .one d p, h1 =>
    simp only [Bool.and_eq_true, bne_iff_ne, Bool.not_eq_true'] at h1
    exact Or.inl ⟨d, h1.1, by rw [h1.2]⟩
  | .many [], _ => exact Or.inr (Or.inl rfl)
  | .many [(d, p)], h1 =>
    simp only [Bool.and_eq_true, bne_iff_ne, Bool.not_eq_true'] at h1
    exact Or.inr (Or.inr ⟨d, h1.1, by rw [h1.2]⟩)

theorem structured_or (id : Nat) : id ∈ structured ∨ structFor id = [] := by
  by_cases hm : id ∈ structured
  · exact Or.inl hm
  · right
    simp only [structured, List.mem_cons, List.not_mem_nil, or_false, not_or] at hm
    simp only [structFor, hm, if_false]

theorem structFor_tidy (id : Nat) : Tidy (structFor id) := by
  have key : ∀ i ∈ structured, tidy (structFor i) = true := by decide +kernel
  rcases structured_or id with h | h
  · exact tidy_spec (key id h)
  · rw [h]; exact ⟨by simp, by simp⟩

theorem getLast_more (v v2 : Val) (vs : List Val) :
    ∃ x, (v2 :: vs).getLast? = some x ∧ (v :: v2 :: vs).getLast? = some x := by
  refine ⟨(v2 :: vs).getLast (by simp), List.getLast?_eq_some_getLast (by simp), ?_⟩
  rw [List.getLast?_cons_cons]; exact List.getLast?_eq_some_getLast (by simp)

theorem lookup_mem {s : List (Nat × Slot)} (hn : (s.map (·.1)).Nodup) {f : Nat × Slot} (hf : f ∈ s) :
    s.lookup f.1 = some f.2 := by
  induction s with
  | nil => simp at hf
  | cons g s ih =>
    simp only [List.map_cons, List.nodup_cons] at hn
    rcases List.mem_cons.mp hf with h | h
    · subst h; simp [List.lookup]
    · have hne : f.1 ≠ g.1 := by
        intro he
        exact hn.1 (List.mem_map.mpr ⟨f, h, he⟩)
      have : (f.1 == g.1) = false := by simp [hne]
      obtain ⟨gi, gs⟩ := g
      simp only [List.lookup, this]
      exact ih hn.2 h

/-- A member after the children with these values. -/
def fill (initial : List (Nat × Slot)) (id : Nat) (sl : Slot) (vs : List Val) : Slot :=
  vs.foldl (fun sl v => sl.put (resolve ((initial.lookup id).getD (.many [])) (zeroFor id) v)) sl

theorem putAll_chain (initial : List (Nat × Slot)) (vals : List (Nat × Val)) (s : List (Nat × Slot)) :
    putAll initial s (chain vals) = s.map fun f => (f.1, fill initial f.1 f.2 (occurrences f.1 vals)) := by
  induction vals generalizing s with
  | nil => simp [chain, putAll, fill, occurrences]
  | cons iv vals ih =>
    obtain ⟨i, v⟩ := iv
    rw [chain, putAll, ih, putChild, List.map_map]
    refine List.map_congr_left fun f _ => ?_
    simp only [Function.comp]
    by_cases h : f.1 = i
    · subst h; simp [occurrences, fill]
    · have h2 : ¬ i = f.1 := fun e => h e.symm
      simp [h, h2, occurrences]

theorem fill_one (initial : List (Nat × Slot)) (id : Nat) (d : Val) (hd : d ≠ .dflt) (h : initial.lookup id = some (.one d false))
    (vs : List Val) (w : Val) (p : Bool) :
    fill initial id (.one w p) vs = match vs.getLast? with
      | some v => .one (orDefault d v) true
      | none => .one w p := by
  induction vs generalizing w p with
  | nil => rfl
  | cons v vs ih =>
    have h1 : fill initial id (.one w p) (v :: vs) = fill initial id (.one (resolve (.one d false) (zeroFor id) v) true) vs := by
      simp [fill, h, Slot.put]
    rw [h1, ih]
    cases vs with
    | nil =>
      simp only [List.getLast?_nil, List.getLast?_singleton, resolve, orDefault, Slot.fallback]
      simp [hd]
    | cons v2 vs =>
      obtain ⟨x, h2, h3⟩ := getLast_more v v2 vs
      rw [h2, h3]

theorem fill_many_present (initial : List (Nat × Slot)) (id : Nat) (vs : List Val) (items : List (Val × Bool)) (x : Val × Bool)
    (hx : x.2 = true) :
    fill initial id (.many (x :: items)) vs =
      .many (x :: items ++ vs.map fun v => (resolve ((initial.lookup id).getD (.many [])) (zeroFor id) v, true)) := by
  induction vs generalizing items with
  | nil => simp [fill]
  | cons v vs ih =>
    have h1 : fill initial id (.many (x :: items)) (v :: vs) =
        fill initial id (.many (x :: (items ++ [(resolve ((initial.lookup id).getD (.many [])) (zeroFor id) v, true)]))) vs := by
      simp [fill, Slot.put, hx]
    rw [h1, ih]
    simp

theorem fill_many (initial : List (Nat × Slot)) (id : Nat) (items : List (Val × Bool)) (h : initial.lookup id = some (.many items))
    (hi : items = [] ∨ ∃ d, d ≠ .dflt ∧ items = [(d, false)]) (vs : List Val) :
    fill initial id (.many items) vs = if vs = [] then .many items
      else .many (vs.map fun v => (orDefault ((items.head?.map (·.1)).getD (zeroFor id)) v, true)) := by
  cases vs with
  | nil => simp [fill]
  | cons v vs =>
    have hres : ∀ v, resolve ((initial.lookup id).getD (.many [])) (zeroFor id) v =
        orDefault ((items.head?.map (·.1)).getD (zeroFor id)) v := by
      intro v
      rw [h]
      rcases hi with rfl | ⟨d, hd, rfl⟩
      · simp [resolve, orDefault, Slot.fallback]
      · simp [resolve, orDefault, Slot.fallback, hd]
    have h1 : fill initial id (.many items) (v :: vs) =
        fill initial id (.many [(resolve ((initial.lookup id).getD (.many [])) (zeroFor id) v, true)]) vs := by
      rcases hi with rfl | ⟨d, hd, rfl⟩
      · simp [fill, Slot.put]
      · simp [fill, Slot.put]
    rw [h1, fill_many_present _ _ _ _ _ rfl]
    simp [hres]

theorem hasValue_chain (id : Nat) (vals : List (Nat × Val)) (b : Bool) :
    hasValue id (chain vals) b = match (occurrences id vals).getLast? with
      | some v => v != .dflt
      | none => b := by
  induction vals generalizing b with
  | nil => rfl
  | cons iv vals ih =>
    obtain ⟨i, v⟩ := iv
    rw [chain, hasValue, ih]
    by_cases h : i = id
    · subst h
      have ho : occurrences i ((i, v) :: vals) = v :: occurrences i vals := by simp [occurrences]
      rw [ho]
      cases hl : occurrences i vals with
      | nil => simp
      | cons v2 vs =>
        obtain ⟨x, h2, h3⟩ := getLast_more v v2 vs
        simp only [h2, h3]
    · simp [occurrences, h]

/-- The structure before the repairs. -/
def plainFor (vals : List (Nat × Val)) (id : Nat) : Slot → Slot
  | .one d _ => .one (single id d vals) (occurrences id vals != [])
  | .many items =>
    if occurrences id vals = [] then .many items
    else .many ((occurrences id vals).map fun v => (orDefault ((items.head?.map (·.1)).getD (zeroFor id)) v, true))

theorem putAll_plain (id : Nat) (vals : List (Nat × Val)) :
    putAll (structFor id) (structFor id) (chain vals) = (structFor id).map fun f => (f.1, plainFor vals f.1 f.2) := by
  rw [putAll_chain]
  refine List.map_congr_left fun f hf => ?_
  have ht := structFor_tidy id
  have hl := lookup_mem ht.nodup hf
  obtain ⟨i, sl⟩ := f
  simp only at hl
  rcases ht.slots _ hf with ⟨d, hd, hs⟩ | hs | ⟨d, hd, hs⟩
  · simp only at hs
    subst hs
    rw [fill_one _ _ d hd hl]
    simp only [plainFor, single]
    cases hg : (occurrences i vals).getLast? with
    | none => rw [List.getLast?_eq_none_iff] at hg; simp [hg]
    | some v =>
      have : occurrences i vals ≠ [] := by intro h; rw [h] at hg; simp at hg
      simp [this]
  · simp only at hs
    subst hs
    rw [fill_many _ _ [] hl (Or.inl rfl)]
    simp only [plainFor]
  · simp only at hs
    subst hs
    rw [fill_many _ _ [(d, false)] hl (Or.inr ⟨d, hd, rfl⟩)]
    simp only [plainFor]

/-- If the last child with the ID has a value, the default does not matter. -/
theorem single_has {id : Nat} {vals : List (Nat × Val)} (h : hasValue id (chain vals) false = true) (d d' : Val) :
    single id d vals = single id d' vals := by
  rw [hasValue_chain] at h
  unfold single
  cases hg : (occurrences id vals).getLast? with
  | none => rw [hg] at h; simp at h
  | some v =>
    rw [hg] at h
    simp only [bne_iff_ne] at h
    simp [orDefault, h]

/-- If not, it is the default. -/
theorem single_not {id : Nat} {vals : List (Nat × Val)} (h : hasValue id (chain vals) false = false) (d : Val) :
    single id d vals = d := by
  rw [hasValue_chain] at h
  unfold single
  cases hg : (occurrences id vals).getLast? with
  | none => rfl
  | some v =>
    rw [hg] at h
    simp only [bne_eq_false_iff_eq] at h
    simp [orDefault, h]

theorem structOf_chain (id : Nat) (vals : List (Nat × Val)) : structOf id (chain vals) = structFrom id vals := by
  unfold structOf structFrom
  simp only [putAll_plain]
  by_cases ha : id = kAudio
  · subst ha
    rw [if_pos rfl, show structFor kAudio = sAudio from by decide +kernel]
    cases h : hasValue kOutputSamplingFrequency (chain vals) false with
    | true =>
      rw [if_pos rfl]
      refine List.map_congr_left fun f hf => ?_
      simp only [sAudio, List.mem_cons, List.not_mem_nil, or_false] at hf
      rcases hf with rfl | rfl | rfl | rfl
      · rfl
      · simp only [plainFor, memberFor]
        rw [single_has h]
      · rfl
      · rfl
    | false =>
      rw [if_neg (by simp)]
      simp only [sAudio, List.map_cons, List.map_nil, copyValue, plainFor, memberFor]
      have e : borrowed.lookup kOutputSamplingFrequency = some kSamplingFrequency := by decide +kernel
      have e1 : borrowed.lookup kSamplingFrequency = none := by decide +kernel
      have e2 : borrowed.lookup kChannels = none := by decide +kernel
      have e3 : borrowed.lookup kBitDepth = none := by decide +kernel
      have n1 : ¬ kSamplingFrequency = kOutputSamplingFrequency := by decide +kernel
      have n2 : ¬ kChannels = kOutputSamplingFrequency := by decide +kernel
      have n3 : ¬ kBitDepth = kOutputSamplingFrequency := by decide +kernel
      simp only [e, e1, e2, e3, n1, n2, n3, if_false, if_true, valueOf, List.lookup, beq_self_eq_true, single_not h]
  · rw [if_neg ha]
    by_cases hv : id = kVideo
    · subst hv
      rw [if_pos rfl, show structFor kVideo = sVideo from by decide +kernel]
      have ew : borrowed.lookup kDisplayWidth = some kPixelWidth := by decide +kernel
      have eh : borrowed.lookup kDisplayHeight = some kPixelHeight := by decide +kernel
      have lw : sVideo.lookup kPixelWidth = some (.one (.nat 0) false) := by decide +kernel
      have lh : sVideo.lookup kPixelHeight = some (.one (.nat 0) false) := by decide +kernel
      have nodup : (sVideo.map (·.1)).Nodup := by decide +kernel
      -- one repair
      have step : ∀ (to_ from_ : Nat) (g : Nat × Slot → Slot) (v : Val) (p : Bool) (hl : (sVideo.map fun f => (f.1, g f)).lookup from_ = some (.one v p)),
          copyValue (sVideo.map fun f => (f.1, g f)) to_ from_ = sVideo.map fun f => (f.1, if f.1 = to_ then (match g f with | .one _ p => .one v p | x => x) else g f) := by
        intro to_ from_ g v p hl
        simp only [copyValue, valueOf, hl, List.map_map]
        refine List.map_congr_left fun f _ => ?_
        simp only [Function.comp]
        split <;> rfl
      have look : ∀ (g : Nat × Slot → Slot) (i : Nat) (sl : Slot), (i, sl) ∈ sVideo →
          (sVideo.map fun f => (f.1, g f)).lookup i = some (g (i, sl)) := by
        intro g i sl hm
        have hn : ((sVideo.map fun f => (f.1, g f)).map (·.1)).Nodup := by
          rw [List.map_map]; exact nodup
        exact lookup_mem hn (f := (i, g (i, sl))) (List.mem_map.mpr ⟨(i, sl), hm, rfl⟩)
      have mw : (kPixelWidth, Slot.one (.nat 0) false) ∈ sVideo := by decide +kernel
      have mh : (kPixelHeight, Slot.one (.nat 0) false) ∈ sVideo := by decide +kernel
      have nhw : ¬ kPixelHeight = kDisplayWidth := by decide +kernel
      have ndd : ¬ kDisplayHeight = kDisplayWidth := by decide +kernel
      have ndd' : ¬ kDisplayWidth = kDisplayHeight := by decide +kernel
      -- after the first
      have first : (if hasValue kDisplayWidth (chain vals) false = true then sVideo.map fun f => (f.1, plainFor vals f.1 f.2)
          else copyValue (sVideo.map fun f => (f.1, plainFor vals f.1 f.2)) kDisplayWidth kPixelWidth) =
          sVideo.map fun f => (f.1, if f.1 = kDisplayWidth then memberFor sVideo vals f.1 f.2 else plainFor vals f.1 f.2) := by
        cases h : hasValue kDisplayWidth (chain vals) false with
        | true =>
          rw [if_pos rfl]
          refine List.map_congr_left fun f hf => ?_
          split
          · next he =>
            obtain ⟨i, sl⟩ := f
            simp only at he; subst he
            cases sl with
            | one d p => simp only [plainFor, memberFor, ew, lw]; rw [single_has h]
            | many items => rfl
          · rfl
        | false =>
          rw [if_neg (by simp), step kDisplayWidth kPixelWidth (fun f => plainFor vals f.1 f.2) _ _ (look (fun f => plainFor vals f.1 f.2) _ _ mw)]
          refine List.map_congr_left fun f hf => ?_
          split
          · next he =>
            obtain ⟨i, sl⟩ := f
            simp only at he; subst he
            cases sl with
            | one d p => simp only [plainFor, memberFor, ew, lw, single_not h]
            | many items => by_cases ho : occurrences kDisplayWidth vals = [] <;> simp [plainFor, memberFor, ho]
          · rfl
      rw [first]
      have last : ∀ f ∈ sVideo, memberFor sVideo vals f.1 f.2 = if f.1 = kDisplayWidth ∨ f.1 = kDisplayHeight then memberFor sVideo vals f.1 f.2 else plainFor vals f.1 f.2 := by
        intro f hf
        split
        · rfl
        · next hne =>
          obtain ⟨i, sl⟩ := f
          simp only [not_or] at hne
          have hb : borrowed.lookup i = none := by
            have hs : i ≠ kOutputSamplingFrequency := by
              intro he
              have : kOutputSamplingFrequency ∉ sVideo.map (·.1) := by decide +kernel
              exact this (he ▸ List.mem_map.mpr ⟨_, hf, rfl⟩)
            have b1 : (i == kOutputSamplingFrequency) = false := by simp [hs]
            have b2 : (i == kDisplayWidth) = false := by simp [hne.1]
            have b3 : (i == kDisplayHeight) = false := by simp [hne.2]
            simp [borrowed, List.lookup, b1, b2, b3]
          cases sl with
          | one d p => simp only [memberFor, plainFor, hb]
          | many items => rfl
      cases h : hasValue kDisplayHeight (chain vals) false with
      | true =>
        rw [if_pos rfl]
        refine List.map_congr_left fun f hf => ?_
        by_cases h1 : f.1 = kDisplayWidth
        · simp [h1]
        · rw [if_neg h1, last f hf]
          by_cases h2 : f.1 = kDisplayHeight
          · rw [if_pos (Or.inr h2)]
            obtain ⟨i, sl⟩ := f
            simp only at h2; subst h2
            cases sl with
            | one d p => simp only [plainFor, memberFor, eh, lh]; rw [single_has h]
            | many items => rfl
          · rw [if_neg (by simp [h1, h2])]
      | false =>
        rw [if_neg (by simp), step kDisplayHeight kPixelHeight _ (single kPixelHeight (.nat 0) vals) (occurrences kPixelHeight vals != []) (by
          have := look (fun f => if f.1 = kDisplayWidth then memberFor sVideo vals f.1 f.2 else plainFor vals f.1 f.2) _ _ mh
          rw [this]
          simp only [nhw, if_false, plainFor])]
        refine List.map_congr_left fun f hf => ?_
        by_cases h2 : f.1 = kDisplayHeight
        · obtain ⟨i, sl⟩ := f
          simp only at h2; subst h2
          simp only [if_true, ndd, if_false]
          cases sl with
          | one d p => simp only [plainFor, memberFor, eh, lh, single_not h]
          | many items => by_cases ho : occurrences kDisplayHeight vals = [] <;> simp [plainFor, memberFor, ho]
        · rw [if_neg h2]
          by_cases h1 : f.1 = kDisplayWidth
          · simp [h1]
          · rw [if_neg h1, last f hf, if_neg (by simp [h1, h2])]
    · rw [if_neg hv]
      refine List.map_congr_left fun f hf => ?_
      have hb : borrowed.lookup f.1 = none := by
        have key : ∀ i ∈ structured, i ≠ kAudio → i ≠ kVideo → ∀ g ∈ structFor i, borrowed.lookup g.1 = none := by decide +kernel
        rcases structured_or id with hm | hm
        · exact key id hm ha hv f hf
        · rw [hm] at hf; simp at hf
      obtain ⟨i, sl⟩ := f
      simp only at hb
      cases sl with
      | one d p => simp only [plainFor, memberFor, hb]
      | many items => rfl

/-! ### From the document to the children -/

theorem chain_push (l : List (Nat × Val)) (id : Nat) (v : Val) : (chain l).push id v = chain (l ++ [(id, v)]) := by
  induction l with
  | nil => rfl
  | cons x l ih => obtain ⟨i, w⟩ := x; simp [chain, Val.push, ih]

theorem completions_append (a b : Log) : completions (a ++ b) = completions a ++ completions b := by
  induction a with
  | nil => rfl
  | cons e a ih => cases e <;> simp [completions, ih]

theorem completions_frameCalls (pos : Nat) (fs : List Bytes) : completions (frameCalls pos fs) = [] := by
  induction fs generalizing pos with
  | nil => rfl
  | cons f fs ih => simp [frameCalls, completions, ih]

theorem completions_payload (p : Payload) (l : Option Leaf) (m : Meta) : completions (p.read m l).1 = [] := by
  unfold Payload.read
  split
  · rfl
  · rfl
  · simp [blockCalls, completions_append, completions, completions_frameCalls]
  · rfl

theorem completions_announce (t : Told) (due : Option Meta) (m : Meta) (st : Bool) :
    completions (t.announce due m st).log = completions t.log := by
  unfold Told.announce
  split
  · split <;> simp [completions_append, completions]
  · simp [completions_append, completions]

theorem announce_value (t : Told) (due : Option Meta) (m : Meta) (st : Bool) : (t.announce due m st).value = t.value := by
  unfold Told.announce
  split
  · split <;> rfl
  · rfl

theorem payload_worth {l : Leaf} {p : Payload} (hp : p.Allowed l) (m : Meta) : (p.read m (some l)).2 = p.worth l := by
  cases p with
  | bytes b => cases l <;> first | rfl | exact hp.elim
  | block bw track tc flags frames body => cases l <;> first | exact hp.elim | rfl

/-- Leaving out the elements of known size with certain IDs. -/
def skipping (skip : Nat → Bool) : Log → Meta → Bool := fun _ m => skip m.id && m.size != kUnknownElementSize

theorem size_known {n w : Nat} (hw : w ≤ 8) (h : n + 1 < 2 ^ (7 * w)) : (n != kUnknownElementSize) = true := by
  have h1 : 2 ^ (7 * w) ≤ 2 ^ 56 := Nat.pow_le_pow_right (by decide) (by omega)
  have h2 : (2 : Nat) ^ 56 < kUnknownElementSize := by decide
  have : n ≠ kUnknownElementSize := by omega
  simpa using this

theorem told_read (skip : Nat → Bool) (t : Tree) : ∀ (ks : Kids) (sized : Bool) (a : Option Nat) (due : Option Meta) (pos : Nat)
    (told : Told) (vals : List (Nat × Val)), told.value = chain vals → t.WellFormed ks sized a →
    completions (t.read (skipping skip) ks due pos told).log =
        completions told.log ++ ((t.without skip).completed ks).map (fun x => (x.1, structFrom x.1 x.2)) ∧
      (t.read (skipping skip) ks due pos told).value = chain (vals ++ (t.without skip).values ks) := by
  induction t with
  | nil => intro ks sized a due pos told vals hv _; simp [Tree.read, Tree.without, Tree.completed, Tree.values, hv]
  | leaf id w p next ih =>
    intro ks sized a due pos told vals hv hw
    obtain ⟨h1, h2, h3, h4, h5, h6⟩ := hw
    have hsz := size_known h3 h4
    cases hs : skip id with
    | true =>
      have hk : ∀ L : Log, skipping skip L ⟨id, byteWidth id + w, p.data.length, pos⟩ = true := fun L => by
        simp only [skipping, hs, hsz, Bool.and_self]
      obtain ⟨i1, i2⟩ := ih ks sized a due (pos + (byteWidth id + w) + p.data.length)
        { told with log := told.log ++ [.element ⟨id, byteWidth id + w, p.data.length, pos⟩] } vals hv h6
      rw [Tree.read]
      simp only [hk, if_true]
      rw [i1, i2]
      simp [Tree.without, hs, completions_append, completions]
    | false =>
      have hk : ∀ (L : Log) (hs' sz pos : Nat), skipping skip L ⟨id, hs', sz, pos⟩ = false := fun L _ _ _ => by
        simp only [skipping, hs, Bool.false_and]
      rw [Tree.read_leaf]
      have hone : completions ((Tree.leaf id w p .nil).read (skipping skip) ks due pos told).log = completions told.log ∧
          ((Tree.leaf id w p .nil).read (skipping skip) ks due pos told).value = chain (vals ++ (Tree.leaf id w p .nil).values ks) := by
        cases he : ks.entry id with
        | none =>
          simp [Tree.read, he, hk, Told.close, completions_append, completions_announce, completions_payload, Tree.values, announce_value, hv]
        | some x =>
          obtain ⟨st, co, g⟩ := x
          rw [he] at h5
          cases g with
          | master r ks' => exact h5.elim
          | leaf l =>
            simp only [Tree.read, he, hk, Told.close, Tree.values]
            refine ⟨by simp [completions_append, completions_announce, completions_payload], ?_⟩
            cases co with
            | true => simp [announce_value, hv, chain_push, payload_worth h5]
            | false => simp [announce_value, hv]
      obtain ⟨i1, i2⟩ := ih ks sized a due _ _ _ hone.2 h6
      rw [i1, i2, hone.1]
      refine ⟨by simp [Tree.without, hs, Tree.completed], ?_⟩
      simp [Tree.without, hs, Tree.values]
  | node id w known kids next ihk ih =>
    intro ks sized a due pos told vals hv hw
    obtain ⟨h1, h2, h3, h4, h5⟩ := hw
    cases he : ks.entry id with
    | none => rw [he] at h4; exact h4.elim
    | some x =>
      obtain ⟨st, co, g⟩ := x
      cases g with
      | leaf l => rw [he] at h4; exact h4.elim
      | master r ks' =>
        rw [he] at h4
        have hk : ∃ sz a', kids.WellFormed ks' sz a' := by
          cases known with
          | true => exact ⟨_, _, h4.2⟩
          | false => exact ⟨_, _, h4.2.2.2⟩
        obtain ⟨sz, a', hk⟩ := hk
        cases hs : known && skip id with
        | true =>
          simp only [Bool.and_eq_true] at hs
          obtain ⟨hs1, hs⟩ := hs
          subst hs1
          have hsz := size_known h3 h4.1
          have hsk : ∀ L : Log, skipping skip L ⟨id, byteWidth id + w, kids.bytes.length, pos⟩ = true := fun L => by
            simp only [skipping, hs, hsz, Bool.and_self]
          obtain ⟨i1, i2⟩ := ih ks sized a due (pos + (byteWidth id + w) + kids.bytes.length)
            { told with log := told.log ++ [.element ⟨id, byteWidth id + w, kids.bytes.length, pos⟩] } vals hv h5
          rw [Tree.read]
          simp only [hsk, Bool.and_self, if_true]
          rw [i1, i2]
          simp [Tree.without, hs, completions_append, completions]
        | false =>
          have hsk : ∀ (L : Log) (hs' sz pos : Nat), (known && skipping skip L ⟨id, hs', sz, pos⟩) = false := fun L _ _ _ => by
            simp only [skipping]
            cases known with
            | false => rfl
            | true => simp only [Bool.true_and] at hs; simp only [hs, Bool.false_and, Bool.and_false]
          rw [Tree.read_node _ _ _ _ _ _ _ _ _ _ he]
          have hone : completions ((Tree.node id w known kids .nil).read (skipping skip) ks due pos told).log =
                completions told.log ++ ((Tree.node id w known (kids.without skip) .nil).completed ks).map (fun x => (x.1, structFrom x.1 x.2)) ∧
              ((Tree.node id w known kids .nil).read (skipping skip) ks due pos told).value =
                chain (vals ++ (Tree.node id w known (kids.without skip) .nil).values ks) := by
            simp only [Tree.read, he, hsk, Told.close, Bool.false_eq_true, if_false, Tree.values, Tree.completed]
            have hin := fun due pos L => ihk ks' sz a' due pos ⟨L, .nil, false⟩ [] rfl hk
            simp only [completions_append, (hin _ _ _).1, (hin _ _ _).2, completions_announce]
            have e1 : ∀ (c : Prop) [Decidable c] (m : Meta) (v : Val), completions (if c then [.start m v] else []) = [] := by
              intro c _ m v; split <;> rfl
            rw [e1, e1]
            refine ⟨?_, ?_⟩
            · cases r.complete with
              | true => simp [completions, structOf_chain]
              | false => simp [completions]
            · cases co with
              | true => simp [announce_value, hv, chain_push]
              | false => simp [announce_value, hv]
          obtain ⟨i1, i2⟩ := ih ks sized a due _ _ _ hone.2 h5
          rw [i1, i2, hone.1]
          refine ⟨by simp [Tree.without, hs, Tree.completed], ?_⟩
          simp [Tree.without, hs, Tree.values]

theorem without_leaf (skip : Nat → Bool) (id w : Nat) (p : Payload) (next : Tree) (ks : Kids) :
    ((Tree.leaf id w p next).without skip).completed ks = ((Tree.leaf id w p .nil).without skip).completed ks ++ (next.without skip).completed ks := by
  cases h : skip id <;> simp [Tree.without, h, Tree.completed]

theorem without_node (skip : Nat → Bool) (id w : Nat) (known : Bool) (kids next : Tree) (ks : Kids) :
    ((Tree.node id w known kids next).without skip).completed ks =
      ((Tree.node id w known kids .nil).without skip).completed ks ++ (next.without skip).completed ks := by
  cases h : known && skip id <;> simp [Tree.without, h, Tree.completed]

theorem told_document (skip : Nat → Bool) (t : Tree) (ht : t.Document topKids) (pos : Nat) (told : Told) (vals : List (Nat × Val)) (hv : told.value = chain vals) :
    completions (t.read (skipping skip) topKids none pos told).log =
      completions told.log ++ ((t.without skip).completed topKids).map (fun x => (x.1, structFrom x.1 x.2)) := by
  induction t generalizing pos told vals with
  | nil => simp [Tree.read, Tree.without, Tree.completed]
  | leaf id w p next ih =>
    obtain ⟨i1, i2⟩ := told_read skip _ topKids true none none pos told vals hv ht.1
    rw [Tree.read_leaf, ih ht.2 _ _ _ i2, i1, List.append_assoc, without_leaf skip id w p next]
    simp
  | node id w known kids next ihk ih =>
    clear ihk
    have hgen : ∃ sized, (Tree.node id w known kids .nil).WellFormed topKids sized none ∧ next.Document topKids := by
      cases known with
      | true => exact ⟨true, ht.1, ht.2⟩
      | false =>
        obtain ⟨h1, h2⟩ := ht
        subst h2
        exact ⟨false, h1, trivial⟩
    obtain ⟨sized, hw, hn⟩ := hgen
    have h4 := hw.2.2.2.1
    cases he : topKids.entry id with
    | none => rw [he] at h4; exact h4.elim
    | some x =>
      obtain ⟨st, co, g⟩ := x
      cases g with
      | leaf l => rw [he] at h4; exact h4.elim
      | master r ks' =>
        obtain ⟨i1, i2⟩ := told_read skip _ topKids sized none none pos told vals hv hw
        rw [Tree.read_node _ _ _ _ _ _ _ _ _ _ he, ih hn _ _ _ i2, i1, List.append_assoc, without_node skip id w known kids next]
        simp

end Verif.Props

/-
Segments on two readers of the same file, one of which has only the beginning of it.
-/
import Verif.Lemmas.ArrivingHeaders
import Verif.Lemmas.ArrivingCluster

namespace Verif.Par
open Verif

variable {r R : Rdr}

/-! ### Creating a segment -/

theorem waits_nat {n : Nat} (h : 0 < n) : Waits (n : Int) := .inl (by omega)

theorem createField_agree (h : r.Ext R) (pos : Nat) : Agree (createField r pos) (createField R pos) := by
  have hl := h.len
  have ht := h.total
  have h1 := h.less
  have h2 := h.sane
  unfold createField
  rcases Nat.lt_or_ge pos r.data.length with hp | hp
  · rw [getUIntLength_there h hp]
    refine Agree.bind (.same _) fun x hx _ => ?_
    obtain ⟨x, n⟩ := x
    rw [← getUIntLength_there h hp] at hx
    obtain ⟨-, b, -, e⟩ := getUIntLength_first hp hx
    have := announced_pos b
    simp only [beyond, ht]
    exact Agree.bind (.same _) fun _ _ _ => Agree.bind (.same _) fun _ _ _ => Agree.wait (waits_nat (by omega)) (by omega)
  · have e : getUIntLength r pos = .ok (pos, 1) := by
      unfold getUIntLength
      rw [if_neg (by omega), if_neg (by omega), if_pos (by omega)]
    rw [e]
    simp only [Res.bind_ok]
    by_cases h0 : pos = 0
    · subst h0
      by_cases hb : r.total = 0
      · have hR : R.data.length = 0 := by omega
        have hr : r.data.length = 0 := by omega
        have e' : getUIntLength R ((0 : Nat) : Int) = .ok (((0 : Nat) : Int), 1) := by
          unfold getUIntLength
          rw [if_neg (by omega), if_neg (by omega), if_pos (by omega)]
        rw [e', hR, hr]
        simp only [Res.bind_ok, beyond, ht]
        exact .same _
      · have hb' : ¬ (beyond r (0 + 1) = true) := by
          simp only [beyond, decide_eq_true_eq]
          omega
        rw [Res.refuse_neg (by simp)]
        simp only [Res.bind_ok]
        rw [Res.refuse_neg hb']
        simp only [Res.bind_ok]
        rw [Res.refuse_pos (by omega)]
        exact .waits (waits_nat (by omega)) _
    · rw [Res.refuse_pos (by omega)]
      exact .waits (waits_nat (by omega)) _

theorem createField_there {pos : Nat} {u : Unit} (h : createField r pos = .ok u) :
    ∃ b, r.byte pos = .ok b ∧ pos + announced b ≤ r.data.length := by
  unfold createField at h
  simp only [Res.bind_eq_ok, Res.refuse_eq_ok] at h
  obtain ⟨⟨x, n⟩, h1, _, h2, _, -, h3⟩ := h
  rcases Nat.lt_or_ge pos r.data.length with hp | hp
  · obtain ⟨-, b, hb, e⟩ := getUIntLength_first hp h1
    subst e
    exact ⟨b, hb, by omega⟩
  · exfalso
    unfold getUIntLength at h1
    rw [if_neg (by omega)] at h1
    split at h1
    · cases h1
    · rw [if_pos (by omega)] at h1
      simp only [Res.ok.injEq, Prod.mk.injEq] at h1
      obtain ⟨rfl, rfl⟩ := h1
      omega

theorem createLoop_agree (h : r.Ext R) : ∀ (f F pos : Nat), r.data.length + 1 ≤ f + pos → R.data.length + 1 ≤ F + pos →
    Agree (createLoop r f pos) (createLoop R F pos) := by
  intro f
  have ht := h.total
  have hl := h.len
  have hat : ∀ p, atEnd R p = atEnd r p := fun p => by unfold atEnd; rw [ht]
  have hbe : ∀ p, beyond R p = beyond r p := fun p => by unfold beyond; rw [ht]
  induction f with
  | zero =>
    intro F pos hf hF
    cases F with
    | zero =>
      unfold createLoop
      rw [hat]
      exact .same _
    | succ F =>
      unfold createLoop
      rw [hat]
      by_cases ha : atEnd r pos
      · rw [if_pos ha, Res.refuse_pos ha]
        exact .same _
      · rw [if_neg ha]
        exact .waits (waits_nat (by omega)) _
  | succ f ih =>
    intro F pos hf hF
    cases F with
    | zero =>
      unfold createLoop
      rw [hat]
      by_cases ha : atEnd r pos
      · rw [if_pos ha, Res.refuse_pos ha]
        exact .same _
      · rw [if_neg ha, Res.refuse_neg ha]
        simp only [Res.bind_ok]
        have e : getUIntLength r pos = .ok (pos, 1) := by
          have h1 := h.less
          unfold getUIntLength
          rw [if_neg (by omega), if_neg (by omega), if_pos (by omega)]
        have : createField r pos = .err pos := by
          unfold createField
          rw [e]
          simp only [Res.bind_ok]
          rw [Res.refuse_pos (by omega)]
          rfl
        rw [this]
        exact .same _
    | succ F =>
      unfold createLoop
      rw [hat]
      refine Agree.bind (.same _) fun _ _ _ => Agree.bind (createField_agree h pos) fun _ h1 _ => ?_
      obtain ⟨b, hb, hle⟩ := createField_there h1
      rw [readID_ext h hb hle]
      refine Agree.bind (.same _) fun x hx _ => ?_
      obtain ⟨id, len⟩ := x
      rw [Res.orErr_eq_ok] at hx
      obtain ⟨b1, -, -, e1⟩ := readID_first hx
      have := announced_pos b1
      refine Agree.bind (createField_agree h _) fun _ h1 _ => ?_
      obtain ⟨b, hb, hle⟩ := createField_there h1
      rw [readUInt_ext h hb hle]
      refine Agree.bind (.same _) fun x _ _ => ?_
      obtain ⟨size, len2⟩ := x
      simp only [ht, hbe]
      exact Agree.ite (fun _ => .same _) fun _ => Agree.bind (.same _) fun _ _ _ => Agree.bind (.same _) fun _ _ _ =>
        Agree.bind (Agree.wait (waits_nat (by omega)) (by omega)) fun _ _ _ => ih _ _ (by omega) (by omega)

theorem createInstance_agree (h : r.Ext R) (pos : Nat) : Agree (createInstance r pos) (createInstance R pos) := by
  have h1 := h.less
  have h2 := h.sane
  unfold createInstance
  rw [Res.refuse_neg (by omega), Res.refuse_neg (by omega)]
  exact createLoop_agree h _ _ _ (by omega) (by omega)

/-! ### Segments that differ in the encodings of their tracks -/

/-- The two segments differ at most in the content encodings of their tracks. -/
def Alike (g G : ReadSegment) : Prop :=
  ∃ ts, G = { g with tracks := ts } ∧ ts.map (·.map ReadTrack.plain) = g.tracks.map (·.map ReadTrack.plain)

theorem Alike.refl (g : ReadSegment) : Alike g g := ⟨g.tracks, rfl, rfl⟩

theorem Alike.symm {g G : ReadSegment} (h : Alike g G) : Alike G g := by
  obtain ⟨ts, rfl, h⟩ := h
  exact ⟨g.tracks, rfl, h.symm⟩

theorem Alike.trans {g G K : ReadSegment} (h : Alike g G) (h' : Alike G K) : Alike g K := by
  obtain ⟨ts, rfl, h⟩ := h
  obtain ⟨us, rfl, h'⟩ := h'
  exact ⟨us, rfl, h'.trans h⟩

/-- The outcomes of a call: the segments are alike, and the answers are the same or both errors. -/
def Fits {α : Type} (y Y : ReadSegment × Res α) : Prop := Alike y.1 Y.1 ∧ Same y.2 Y.2

theorem Fits.refl {α : Type} (y : ReadSegment × Res α) : Fits y y := ⟨.refl _, .same _⟩

theorem Same.symm {α : Type} {x X : Res α} (h : Same x X) : Same X x := by
  cases h
  · exact .same _
  · exact .errs _ _

theorem Same.trans {α : Type} {x y z : Res α} (h : Same x y) (h' : Same y z) : Same x z := by
  cases h with
  | same => exact h'
  | errs c d => obtain ⟨e, rfl⟩ := h'.err; exact .errs _ _

theorem Fits.symm {α : Type} {y Y : ReadSegment × Res α} (h : Fits y Y) : Fits Y y := ⟨h.1.symm, h.2.symm⟩

theorem Fits.trans {α : Type} {x y z : ReadSegment × Res α} (h : Fits x y) (h' : Fits y z) : Fits x z :=
  ⟨h.1.trans h'.1, h.2.trans h'.2⟩

theorem Fits.of_eq {α : Type} {y Y : ReadSegment × Res α} (h : y = Y) : Fits y Y := h ▸ .refl y

/-- The answer is not that more data is needed. -/
def Settled {α : Type} (x : Res α) : Prop := ∀ c, x = .err c → ¬ Waits c

theorem Settled.ok {α : Type} (a : α) : Settled (.ok a) := fun _ e => (by cases e)

theorem Settled.ub {α : Type} : Settled (.ub : Res α) := fun _ e => (by cases e)

theorem Settled.err {α : Type} {c : Int} (h : ¬ Waits c) : Settled (.err c : Res α) := fun _ e => (by cases e; exact h)

theorem not_waits {c : Int} (h : c ≤ 0) (h' : c ≠ E_BUFFER_NOT_FULL) : ¬ Waits c := fun hw => by
  rcases hw with hw | hw
  · omega
  · exact h' hw

theorem Settled.invalid {α : Type} : Settled (.err E_FILE_FORMAT_INVALID : Res α) := .err (not_waits (by decide) (by decide))

theorem Settled.failed {α : Type} : Settled (.err E_PARSE_FAILED : Res α) := .err (not_waits (by decide) (by decide))

/-- A call on the smaller reader: what the larger one gives, or more data is needed and the call can be repeated. -/
def Resumes {α : Type} (call : Rdr → ReadSegment → ReadSegment × Res α) (r R : Rdr) (g : ReadSegment) : Prop :=
  (Fits (call r g) (call R g) ∧ Settled (call r g).2) ∨
    (∃ c, Waits c ∧ (call r g).2 = .err c) ∧ Fits (call R (call r g).1) (call R g)

/-! ### Headers -/

theorem headersField_agree (h : r.Ext R) (stop : Option Nat) (pos : Nat) :
    Agree (headersField r stop pos) (headersField R stop pos) := by
  have := h.len
  unfold headersField
  refine Agree.bind (Agree.wait (waits_nat (by omega)) (by omega)) fun _ h1 _ => ?_
  rw [Res.refuse_eq_ok] at h1
  rw [getUIntLength_there h (by omega)]
  refine Agree.bind (.same _) fun x hx _ => ?_
  obtain ⟨x, n⟩ := x
  rw [← getUIntLength_there h (by omega)] at hx
  obtain ⟨-, b, -, e⟩ := getUIntLength_first (by omega) hx
  have := announced_pos b
  exact Agree.bind (.same _) fun _ _ _ => Agree.bind (.same _) fun _ _ _ => Agree.bind (.same _) fun _ _ _ =>
    Agree.wait (waits_nat (by omega)) (by omega)

theorem headersField_there {stop : Option Nat} {pos : Nat} {u : Unit} (h : headersField r stop pos = .ok u) :
    ∃ b, r.byte pos = .ok b ∧ pos + announced b ≤ r.data.length := by
  unfold headersField at h
  simp only [Res.bind_eq_ok, Res.refuse_eq_ok] at h
  obtain ⟨_, h1, ⟨x, len⟩, h2, _, -, _, -, _, -, h3⟩ := h
  obtain ⟨-, b, hb, e⟩ := getUIntLength_first (by omega) h2
  subst e
  exact ⟨b, hb, by omega⟩

/-- Outcomes related by a relation on the values. -/
inductive Like {α : Type} (S : α → α → Prop) : Res α → Res α → Prop where
  | ok {a A : α} (h : S a A) : Like S (.ok a) (.ok A)
  | errs (c d : Int) : Like S (.err c) (.err d)
  | ub : Like S .ub .ub

theorem Like.of_same {α β : Type} {S : β → β → Prop} {x X : Res α} {f F : α → Res β} (h : Same x X)
    (hf : ∀ a, Like S (f a) (F a)) : Like S (x >>= f) (X >>= F) := by
  cases h with
  | errs c d => exact .errs c d
  | same =>
    cases x with
    | ok a => exact hf a
    | err c => exact .errs _ _
    | ub => exact .ub

theorem isSome_plain {ts Ts : Option (List ReadTrack)}
    (h : Ts.map (·.map ReadTrack.plain) = ts.map (·.map ReadTrack.plain)) : Ts.isSome = ts.isSome := by
  cases ts <;> cases Ts <;> first | rfl | cases h

/-- The two segments differ at most in the content encodings of their tracks and in how far they have been read. -/
def Akin (g G : ReadSegment) : Prop :=
  ∃ ts p, G = { g with tracks := ts, pos := p } ∧ ts.map (·.map ReadTrack.plain) = g.tracks.map (·.map ReadTrack.plain)

theorem Alike.akin {g G : ReadSegment} (h : Alike g G) : Akin g G := by
  obtain ⟨ts, rfl, h⟩ := h
  exact ⟨ts, g.pos, rfl, h⟩

theorem Akin.before {g G : ReadSegment} (h : Akin g G) (p : Int) : Akin { g with pos := p } G := by
  obtain ⟨ts, q, rfl, h⟩ := h
  exact ⟨ts, q, rfl, h⟩

theorem headersElement_like (h : r.Ext R) {g G : ReadSegment} (hg : Akin g G) (id : Nat) {pos size : Nat}
    (hs : pos + size ≤ r.data.length) : Like Akin (headersElement r g id pos size) (headersElement R G id pos size) := by
  obtain ⟨ts, q, rfl, ht⟩ := hg
  unfold headersElement
  by_cases h1 : id = Mux.kMkvInfo
  · rw [if_pos h1, if_pos h1]
    exact Like.of_same (.same _) fun _ => Like.of_same (infoParse_same h hs) fun x => .ok ⟨ts, q, rfl, ht⟩
  rw [if_neg h1, if_neg h1]
  by_cases h2 : id = Mux.kMkvTracks
  · rw [if_pos h2, if_pos h2]
    simp only [isSome_plain ht]
    refine Like.of_same (.same _) fun _ => ?_
    rcases tracksParse_like h hs with ⟨c, d, e1, e2⟩ | ⟨xs, Xs, e1, e2, e⟩
    · rw [e1, e2]; exact .errs _ _
    · rw [e1, e2]
      exact .ok ⟨some Xs, q, rfl, by simp only [Option.map_some, e]⟩
  rw [if_neg h2, if_neg h2]
  by_cases h3 : id = Mux.kMkvCues
  · rw [if_pos h3, if_pos h3]
    exact .ok ⟨ts, q, rfl, ht⟩
  rw [if_neg h3, if_neg h3]
  by_cases h4 : id = Mux.kMkvSeekHead
  · rw [if_pos h4, if_pos h4]
    simp only
    by_cases hh : g.seekHead.isSome
    · rw [if_pos hh, if_pos hh]; exact .ok ⟨ts, q, rfl, ht⟩
    · rw [if_neg hh, if_neg hh]; exact Like.of_same (seekHeadParse_same h hs) fun x => .ok ⟨ts, q, rfl, ht⟩
  rw [if_neg h4, if_neg h4]
  by_cases h5 : id = Mux.kMkvChapters
  · rw [if_pos h5, if_pos h5]
    simp only
    by_cases hh : g.chapters.isSome
    · rw [if_pos hh, if_pos hh]; exact .ok ⟨ts, q, rfl, ht⟩
    · rw [if_neg hh, if_neg hh]; exact Like.of_same (chaptersParse_same h hs) fun x => .ok ⟨ts, q, rfl, ht⟩
  rw [if_neg h5, if_neg h5]
  by_cases h6 : id = Mux.kMkvTags
  · rw [if_pos h6, if_pos h6]
    simp only
    by_cases hh : g.tags.isSome
    · rw [if_pos hh, if_pos hh]; exact .ok ⟨ts, q, rfl, ht⟩
    · rw [if_neg hh, if_neg hh]; exact Like.of_same (tagsParse_same h hs) fun x => .ok ⟨ts, q, rfl, ht⟩
  rw [if_neg h6, if_neg h6]
  exact .ok ⟨ts, q, rfl, ht⟩

/-- The next element, if any, and the segment with it. -/
def AlikeStep (x X : Option (ReadSegment × Nat)) : Prop :=
  (x = none ∧ X = none) ∨ ∃ g G p, x = some (g, p) ∧ X = some (G, p) ∧ Akin g G

/-- A round: alike, or more data is needed. -/
theorem headersStep_like (h : r.Ext R) {g G : ReadSegment} (hg : Akin g G) (pos : Nat) :
    Like AlikeStep (headersStep r g pos) (headersStep R G pos) ∨ ∃ c, Waits c ∧ headersStep r g pos = .err c := by
  have hst : G.stop = g.stop := by obtain ⟨ts, q, rfl, -⟩ := hg; rfl
  have hat : atEnd R pos = atEnd r pos := by unfold atEnd; rw [h.total]
  have hl := h.len
  unfold headersStep
  rw [hst, hat]
  by_cases he : atEnd r pos ∨ reached g.stop pos
  · rw [if_pos he, if_pos he]; exact .inl (.ok (.inl ⟨rfl, rfl⟩))
  rw [if_neg he, if_neg he]
  have wait : ∀ {α β : Type} {x X : Res α} {f F : α → Res β} {S : β → β → Prop}, Agree x X →
      (∀ a, x = .ok a → X = .ok a → Like S (f a) (F a) ∨ ∃ c, Waits c ∧ f a = .err c) →
      Like S (x >>= f) (X >>= F) ∨ ∃ c, Waits c ∧ (x >>= f) = .err c := by
    intro α β x X f F S hx hf
    cases hx with
    | errs c d => exact .inl (.errs c d)
    | waits h X => exact .inr ⟨_, h, rfl⟩
    | same =>
      cases x with
      | ok a => exact hf a rfl rfl
      | err c => exact .inl (.errs _ _)
      | ub => exact .inl .ub
  refine wait (headersField_agree h _ _) fun _ h1 _ => ?_
  obtain ⟨b, hb, hle⟩ := headersField_there h1
  rw [readID_ext h hb hle]
  refine wait (.same _) fun x _ _ => ?_
  obtain ⟨id, len⟩ := x
  simp only
  by_cases hc : id = Mux.kMkvCluster
  · rw [if_pos hc, if_pos hc]; exact .inl (.ok (.inl ⟨rfl, rfl⟩))
  rw [if_neg hc, if_neg hc]
  refine wait (headersField_agree h _ _) fun _ h1 _ => ?_
  obtain ⟨b, hb, hle⟩ := headersField_there h1
  rw [readUInt_ext h hb hle]
  refine wait (.same _) fun x hx _ => ?_
  obtain ⟨size, len2⟩ := x
  obtain ⟨b2, -, -, e2⟩ := readUInt_first hx
  have := announced_pos b2
  simp only
  refine wait (.same _) fun _ _ _ => wait (Agree.wait (waits_nat (by omega)) (by omega)) fun _ h2 _ => ?_
  rw [Res.refuse_eq_ok] at h2
  have hel := headersElement_like h hg id (pos := pos + len + len2) (size := size) (by omega)
  generalize headersElement r g id (pos + len + len2) size = x at hel
  generalize headersElement R G id (pos + len + len2) size = X at hel
  cases hel with
  | ok h => exact .inl (.ok (.inr ⟨_, _, _, rfl, rfl, h⟩))
  | errs c d => exact .inl (.errs _ _)
  | ub => exact .inl .ub

/-- A round that has found an element has gone forward, within the data. -/
theorem headersStep_far {g g' : ReadSegment} {pos pos' : Nat} (h : headersStep r g pos = .ok (some (g', pos'))) :
    pos + 2 ≤ pos' ∧ pos' ≤ r.data.length ∧ past g.stop pos' = false ∧ g'.stop = g.stop ∧ g'.start = g.start := by
  unfold headersStep at h
  split at h
  · cases h
  simp only [Res.bind_eq_ok, Res.orErr_eq_ok] at h
  obtain ⟨_, -, ⟨id, len⟩, hid, h⟩ := h
  simp only at h
  split at h
  · cases h
  simp only [Res.bind_eq_ok, Res.refuse_eq_ok] at h
  obtain ⟨_, -, ⟨size, len2⟩, hsz, _, h1, _, h2, g1, h3, h4⟩ := h
  obtain ⟨b1, -, -, e1⟩ := readID_first hid
  obtain ⟨b2, -, -, e2⟩ := readUInt_first hsz
  have := announced_pos b1
  have := announced_pos b2
  simp only [Res.ok.injEq, Option.some.injEq, Prod.mk.injEq] at h4
  obtain ⟨rfl, rfl⟩ := h4
  have key : KeepsBare (fun x : ReadSegment => x.stop = g.stop ∧ x.start = g.start) (headersElement r g id (pos + len + len2) size) := by
    unfold headersElement
    refine KeepsBare.ite (KeepsBare.bind fun _ => KeepsBare.bind fun _ => KeepsBare.ok ⟨rfl, rfl⟩) <| KeepsBare.ite (KeepsBare.bind fun _ =>
      KeepsBare.bind fun _ => KeepsBare.ok ⟨rfl, rfl⟩) <| KeepsBare.ite (KeepsBare.ok ⟨rfl, rfl⟩) <| KeepsBare.ite (KeepsBare.ite (KeepsBare.ok ⟨rfl, rfl⟩)
      (KeepsBare.bind fun _ => KeepsBare.ok ⟨rfl, rfl⟩)) <| KeepsBare.ite (KeepsBare.ite (KeepsBare.ok ⟨rfl, rfl⟩)
      (KeepsBare.bind fun _ => KeepsBare.ok ⟨rfl, rfl⟩)) <| KeepsBare.ite (KeepsBare.ite (KeepsBare.ok ⟨rfl, rfl⟩)
      (KeepsBare.bind fun _ => KeepsBare.ok ⟨rfl, rfl⟩)) (KeepsBare.ok ⟨rfl, rfl⟩)
  obtain ⟨k1, k2⟩ := key _ h3
  exact ⟨by omega, by omega, by simpa using h1, k1, k2⟩

/-- The loop with any sufficient fuel. -/
theorem headersLoop_fuel : ∀ (f F : Nat) (g : ReadSegment) (pos : Nat), pos ≤ r.data.length + 1 → r.data.length + 2 ≤ f + pos →
    r.data.length + 2 ≤ F + pos → headersLoop r f g pos = headersLoop r F g pos
  | 0, _, _, _, h1, h2, _ => by omega
  | _, 0, _, _, h1, _, h3 => by omega
  | f + 1, F + 1, g, pos, h1, h2, h3 => by
    unfold headersLoop
    cases hs : headersStep r g pos with
    | ub => rfl
    | err c => rfl
    | ok x =>
      cases x with
      | none => rfl
      | some x =>
        obtain ⟨g', pos'⟩ := x
        have := headersStep_far hs
        exact headersLoop_fuel f F g' pos' (by omega) (by omega) (by omega)

theorem Akin.at {g G : ReadSegment} (h : Akin g G) (p : Int) : Alike { g with pos := p } { G with pos := p } := by
  obtain ⟨ts, q, rfl, h⟩ := h
  exact ⟨ts, rfl, h⟩

/-- What the loop answers at the end. -/
theorem headersEnd_same {g G : ReadSegment} (h : Akin g G) (pos : Nat) :
    (if past { g with pos := (pos : Int) }.stop pos then (.err E_FILE_FORMAT_INVALID : Res Unit)
      else if { g with pos := (pos : Int) }.info.isNone then .err E_FILE_FORMAT_INVALID
      else if { g with pos := (pos : Int) }.tracks.isNone then .err E_FILE_FORMAT_INVALID
      else .ok ()) =
    (if past { G with pos := (pos : Int) }.stop pos then (.err E_FILE_FORMAT_INVALID : Res Unit)
      else if { G with pos := (pos : Int) }.info.isNone then .err E_FILE_FORMAT_INVALID
      else if { G with pos := (pos : Int) }.tracks.isNone then .err E_FILE_FORMAT_INVALID
      else .ok ()) := by
  obtain ⟨ts, q, rfl, h⟩ := h
  have : ts.isNone = g.tracks.isNone := by
    have := isSome_plain h
    rw [← Option.not_isSome, ← Option.not_isSome, this]
  simp only [this]
  rfl

theorem Like.bind_same {α β : Type} {S : β → β → Prop} {x : Res α} {f F : α → Res β}
    (hf : ∀ a, x = .ok a → Like S (f a) (F a)) : Like S (x >>= f) (x >>= F) := by
  cases x with
  | ok a => exact hf a rfl
  | err c => exact .errs _ _
  | ub => exact .ub

/-- A round on segments that are alike. -/
theorem headersStep_alike (h : r.Ext r) {g G : ReadSegment} (hg : Akin g G) (pos : Nat) :
    Like AlikeStep (headersStep r g pos) (headersStep r G pos) := by
  have hst : G.stop = g.stop := by obtain ⟨ts, q, rfl, -⟩ := hg; rfl
  unfold headersStep
  rw [hst]
  by_cases he : atEnd r pos ∨ reached g.stop pos
  · rw [if_pos he, if_pos he]; exact .ok (.inl ⟨rfl, rfl⟩)
  rw [if_neg he, if_neg he]
  refine Like.bind_same fun _ _ => Like.bind_same fun x _ => ?_
  obtain ⟨id, len⟩ := x
  simp only
  by_cases hc : id = Mux.kMkvCluster
  · rw [if_pos hc, if_pos hc]; exact .ok (.inl ⟨rfl, rfl⟩)
  rw [if_neg hc, if_neg hc]
  refine Like.bind_same fun _ _ => Like.bind_same fun x _ => ?_
  obtain ⟨size, len2⟩ := x
  simp only
  refine Like.bind_same fun _ _ => Like.bind_same fun _ h2 => ?_
  rw [Res.refuse_eq_ok] at h2
  have hel := headersElement_like h hg id (pos := pos + len + len2) (size := size) (by omega)
  generalize headersElement r g id (pos + len + len2) size = x at hel
  generalize headersElement r G id (pos + len + len2) size = X at hel
  cases hel with
  | ok h => exact .ok (.inr ⟨_, _, _, rfl, rfl, h⟩)
  | errs c d => exact .errs _ _
  | ub => exact .ub

/-- The loop on segments that are alike. -/
theorem headersLoop_alike (hr : r.Ext r) : ∀ (f : Nat) {g G : ReadSegment} (_ : Akin g G) (pos : Nat),
    Fits (headersLoop r f g pos) (headersLoop r f G pos)
  | 0, _, _, h, pos => ⟨h.at _, .same _⟩
  | f + 1, g, G, h, pos => by
    unfold headersLoop
    have hs := headersStep_alike hr h pos
    generalize headersStep r g pos = x at hs
    generalize headersStep r G pos = X at hs
    cases hs with
    | ub => exact ⟨h.at _, .same _⟩
    | errs c d => exact ⟨h.at _, .errs _ _⟩
    | ok hx =>
      rcases hx with ⟨rfl, rfl⟩ | ⟨g', G', p', rfl, rfl, h'⟩
      · exact ⟨h.at _, .of_eq (headersEnd_same h pos)⟩
      · exact headersLoop_alike hr f h' p'

theorem Rdr.Ext.whole (h : r.Ext R) : R.Ext R := ⟨List.prefix_refl _, rfl, rfl, h.sane, h.big⟩

theorem Rdr.Ext.part (h : r.Ext R) : r.Ext r := ⟨List.prefix_refl _, rfl, rfl, h.less, h.fails⟩

/-- The loop on the two readers. -/
theorem headersLoop_both (h : r.Ext R) : ∀ (f F : Nat) {g G : ReadSegment} (_ : Akin g G) (pos : Nat),
    pos ≤ r.data.length + 1 → past g.stop pos = false → r.data.length + 2 ≤ f + pos → R.data.length + 2 ≤ F + pos →
    (Fits (headersLoop r f g pos) (headersLoop R F G pos) ∧ Settled (headersLoop r f g pos).2) ∨
      (∃ c, Waits c ∧ (headersLoop r f g pos).2 = .err c) ∧
      ∃ p : Nat, (headersLoop r f g pos).1.pos = p ∧ p ≤ r.data.length + 1 ∧ past g.stop p = false ∧
        (headersLoop r f g pos).1.stop = g.stop ∧
        Fits (headersLoop R (R.data.length + 2 - p) (headersLoop r f g pos).1 p) (headersLoop R F G pos) := by
  intro f
  have hl := h.len
  induction f with
  | zero => intro F g G hg pos h1 _ h2 h3; omega
  | succ f ih =>
    intro F g G hg pos h1 hpast h2 h3
    obtain ⟨F, rfl⟩ : ∃ F', F = F' + 1 := ⟨F - 1, by omega⟩
    have hcases : (Like AlikeStep (headersStep r g pos) (headersStep R G pos) ∧ Settled (headersStep r g pos)) ∨
        ∃ c, Waits c ∧ headersStep r g pos = .err c := by
      rcases headersStep_like h hg pos with hs | hs
      · by_cases hw : ∃ c, Waits c ∧ headersStep r g pos = .err c
        · exact .inr hw
        · exact .inl ⟨hs, fun c e hc => hw ⟨c, hc, e⟩⟩
      · exact .inr hs
    rcases hcases with ⟨hs, hset⟩ | ⟨c, hc, hs⟩
    · cases hx : headersStep r g pos with
      | ub =>
        rw [hx] at hs
        generalize hX : headersStep R G pos = X at hs
        cases hs
        left
        unfold headersLoop
        rw [hx, hX]
        exact ⟨⟨hg.at _, .same _⟩, .ub⟩
      | err c =>
        rw [hx] at hs
        generalize hX : headersStep R G pos = X at hs
        cases hs
        left
        unfold headersLoop
        rw [hx, hX]
        exact ⟨⟨hg.at _, .errs _ _⟩, .err (hset c hx)⟩
      | ok x =>
        rw [hx] at hs
        generalize hX : headersStep R G pos = X at hs
        cases hs with
        | ok ha =>
          rcases ha with ⟨rfl, rfl⟩ | ⟨g', G', p', rfl, rfl, h'⟩
          · left
            unfold headersLoop
            rw [hx, hX]
            refine ⟨⟨hg.at _, .of_eq (headersEnd_same hg pos)⟩, ?_⟩
            simp only
            repeat' split
            all_goals first | exact .invalid | exact .ok _
          · obtain ⟨k1, k2, k3, k4, k5⟩ := headersStep_far hx
            have := ih F h' p' (by omega) (by rw [k4]; exact k3) (by omega) (by omega)
            have e1 : headersLoop r (f + 1) g pos = headersLoop r f g' p' := by rw [headersLoop, hx]
            have e2 : headersLoop R (F + 1) G pos = headersLoop R F G' p' := by rw [headersLoop, hX]
            rw [k4] at this
            rw [e1, e2]
            exact this
    · have e : headersLoop r (f + 1) g pos = ({ g with pos := pos }, .err c) := by
        unfold headersLoop
        rw [hs]
      rw [e]
      refine .inr ⟨⟨c, hc, rfl⟩, pos, rfl, h1, hpast, rfl, ?_⟩
      rw [headersLoop_fuel (r := R) (F + 1) (R.data.length + 2 - pos) G pos (by omega) (by omega) (by omega)]
      exact headersLoop_alike h.whole _ (hg.before _) _

theorem ReadSegment.parseHeaders_resumes (h : r.Ext R) (g : ReadSegment) :
    Resumes (fun q g => g.parseHeaders q) r R g := by
  have hl := h.len
  have h1 := h.less
  have h2 := h.sane
  have hbe : g.stop.any (beyond R) = g.stop.any (beyond r) := by
    cases g.stop with
    | none => rfl
    | some s => simp only [Option.any_some, beyond, h.total]
  have n1 : ¬ (r.total > 0 ∧ (r.data.length : Int) > r.total) := by omega
  have n2 : ¬ (R.total > 0 ∧ (R.data.length : Int) > R.total) := by omega
  unfold Resumes
  by_cases c2 : g.pos < 0
  · left
    show Fits (g.parseHeaders r) (g.parseHeaders R) ∧ Settled (g.parseHeaders r).2
    unfold ReadSegment.parseHeaders
    rw [if_neg n1, if_neg n2, if_pos c2, if_pos c2]
    exact ⟨.refl _, .invalid⟩
  by_cases c3 : g.stop.any (beyond r) ∨ past g.stop g.pos.toNat
  · left
    show Fits (g.parseHeaders r) (g.parseHeaders R) ∧ Settled (g.parseHeaders r).2
    unfold ReadSegment.parseHeaders
    rw [if_neg n1, if_neg n2, if_neg c2, if_neg c2, hbe, if_pos c3, if_pos c3]
    exact ⟨.refl _, .invalid⟩
  have e1 : g.parseHeaders r = headersLoop r (r.data.length + 2 - g.pos.toNat) g g.pos.toNat := by
    unfold ReadSegment.parseHeaders
    rw [if_neg (by omega), if_neg c2, if_neg c3]
  have e2 : g.parseHeaders R = headersLoop R (R.data.length + 2 - g.pos.toNat) g g.pos.toNat := by
    unfold ReadSegment.parseHeaders
    rw [if_neg (by omega), if_neg c2, hbe, if_neg c3]
  simp only
  rcases Nat.lt_or_ge (r.data.length + 1) g.pos.toNat with hlt | hge
  · right
    have e : g.parseHeaders r = (g, .err (g.pos.toNat + 1 : Nat)) := by
      rw [e1, show r.data.length + 2 - g.pos.toNat = 0 by omega, headersLoop]
      rw [show ((g.pos.toNat : Nat) : Int) = g.pos by omega]
    rw [e]
    exact ⟨⟨_, waits_nat (by omega), rfl⟩, .refl _⟩
  · rcases headersLoop_both h (r.data.length + 2 - g.pos.toNat) (R.data.length + 2 - g.pos.toNat) (Alike.refl g).akin g.pos.toNat hge
      (by simp only [not_or, Bool.not_eq_true] at c3; exact c3.2) (by omega) (by omega) with hf | ⟨hw, p, k1, k2, k3, k4, k5⟩
    · left
      rw [e1, e2]
      exact hf
    · right
      rw [e1, e2]
      refine ⟨hw, ?_⟩
      generalize headersLoop r (r.data.length + 2 - g.pos.toNat) g g.pos.toNat = y at k1 k4 k5
      unfold ReadSegment.parseHeaders
      rw [if_neg (by omega), if_neg (by omega), k1, k4, hbe, Int.toNat_natCast, if_neg (by
        simp only [not_or, Bool.not_eq_true] at c3 ⊢; exact ⟨c3.1, k3⟩)]
      exact k5

/-- `ParseHeaders` on segments that are alike. -/
theorem ReadSegment.parseHeaders_alike (h : r.Ext r) {g G : ReadSegment} (hg : Alike g G) :
    Fits (g.parseHeaders r) (G.parseHeaders r) := by
  have hst : G.stop = g.stop := by obtain ⟨ts, rfl, -⟩ := hg; rfl
  have hpos : G.pos = g.pos := by obtain ⟨ts, rfl, -⟩ := hg; rfl
  unfold ReadSegment.parseHeaders
  rw [hst, hpos]
  by_cases c1 : r.total > 0 ∧ (r.data.length : Int) > r.total
  · rw [if_pos c1, if_pos c1]; exact ⟨hg, .same _⟩
  by_cases c2 : g.pos < 0
  · rw [if_neg c1, if_neg c1, if_pos c2, if_pos c2]; exact ⟨hg, .same _⟩
  by_cases c3 : g.stop.any (beyond r) ∨ past g.stop g.pos.toNat
  · rw [if_neg c1, if_neg c1, if_neg c2, if_neg c2, if_pos c3, if_pos c3]; exact ⟨hg, .same _⟩
  rw [if_neg c1, if_neg c1, if_neg c2, if_neg c2, if_neg c3, if_neg c3]
  exact headersLoop_alike h _ hg.akin _

/-! ### Calls that do not look at the tracks -/

/-- A call on the smaller reader: what the larger one gives, or both fail alike, or more data is needed and the call can
be repeated. -/
inductive Redo {σ α : Type} (call : Rdr → σ → σ × Res α) (r R : Rdr) (g : σ) : Prop where
  | same (h : call r g = call R g) (hs : Settled (call r g).2)
  | errs (c d : Int) (hn : ¬ Waits c) (h : (call r g).1 = (call R g).1) (hc : (call r g).2 = .err c) (hd : (call R g).2 = .err d)
  | wait (c : Int) (h : Waits c) (hc : (call r g).2 = .err c) (he : call R (call r g).1 = call R g)

theorem Redo.resumes {α : Type} {call : Rdr → ReadSegment → ReadSegment × Res α} {g : ReadSegment} (h : Redo call r R g) :
    Resumes call r R g := by
  cases h with
  | same h hs => exact .inl ⟨.of_eq h, hs⟩
  | errs c d hn h hc hd =>
    refine .inl ⟨⟨by rw [h]; exact .refl _, ?_⟩, ?_⟩
    · rw [hc, hd]
      exact .errs _ _
    · rw [hc]
      exact .err hn
  | wait c h hc he => exact .inr ⟨⟨c, h, hc⟩, .of_eq he⟩

theorem scanStep_agree (h : r.Ext R) (g : ReadSegment) (pos : Nat) : Agree (scanStep r g pos) (scanStep R g pos) := by
  have hat : atEnd R pos = atEnd r pos := by unfold atEnd; rw [h.total]
  unfold scanStep
  rw [hat]
  refine Agree.ite (fun _ => .same _) fun _ => Agree.bind (fieldIn_agree h _ _) fun n hn _ => ?_
  rw [fieldIn_readID h hn]
  refine Agree.bind (.same _) fun x _ _ => ?_
  obtain ⟨id, len⟩ := x
  refine Agree.bind (fieldIn_agree h _ _) fun m hm _ => ?_
  rw [fieldIn_readUInt h hm]
  exact .same _

/-- The segment with other tracks and at another position. -/
def ReadSegment.dress (ts : Option (List ReadTrack)) (p : Int) (g : ReadSegment) : ReadSegment := { g with tracks := ts, pos := p }

/-- What a round has found, in another segment. -/
def Scan.dress (ts : Option (List ReadTrack)) (p : Int) : Scan → Scan
  | .finished => .finished
  | .skip g pos => .skip (g.dress ts p) pos
  | .cluster a b c => .cluster a b c

theorem scanStep_dress (ts : Option (List ReadTrack)) (p : Int) (g : ReadSegment) (pos : Nat) :
    scanStep r (g.dress ts p) pos = (scanStep r g pos).map (Scan.dress ts p) := by
  unfold scanStep
  rw [show (g.dress ts p).stop = g.stop from rfl]
  by_cases h1 : atEnd r pos ∨ reached g.stop pos
  · rw [if_pos h1, if_pos h1]; rfl
  rw [if_neg h1, if_neg h1]
  cases fieldIn r g.stop pos with
  | err c => rfl
  | ub => rfl
  | ok n =>
    simp only [Res.bind_ok]
    cases (readID r pos).orErr E_FILE_FORMAT_INVALID with
    | err c => rfl
    | ub => rfl
    | ok x =>
      obtain ⟨id, len⟩ := x
      simp only [Res.bind_ok]
      cases fieldIn r g.stop (pos + len) with
      | err c => rfl
      | ub => rfl
      | ok m =>
        simp only [Res.bind_ok]
        cases readUInt r (pos + len : Nat) with
        | err c => rfl
        | ub => rfl
        | ok x =>
          obtain ⟨size, len2⟩ := x
          simp only [Res.bind_ok]
          by_cases h2 : size = 0
          · rw [if_pos h2, if_pos h2]; rfl
          rw [if_neg h2, if_neg h2]
          by_cases h3 : size ≠ unknownSize len2 ∧ past g.stop (pos + len + len2 + size) = true
          · rw [Res.refuse_pos h3]; rfl
          rw [Res.refuse_neg h3]
          simp only [Res.bind_ok]
          by_cases h4 : id = Mux.kMkvCues
          · rw [if_pos h4, if_pos h4]
            by_cases h5 : size = unknownSize len2
            · rw [Res.refuse_pos h5]; rfl
            · rw [Res.refuse_neg h5]; rfl
          rw [if_neg h4, if_neg h4]
          by_cases h6 : id ≠ Mux.kMkvCluster
          · rw [if_pos h6, if_pos h6]
            by_cases h5 : size = unknownSize len2
            · rw [Res.refuse_pos h5]; rfl
            · rw [Res.refuse_neg h5]; rfl
          rw [if_neg h6, if_neg h6]
          rfl

theorem scanLoop_dress (ts : Option (List ReadTrack)) (p : Int) : ∀ (f : Nat) (g : ReadSegment) (pos : Nat),
    scanLoop r f (g.dress ts p) pos = ({ (scanLoop r f g pos).1 with tracks := ts }, (scanLoop r f g pos).2)
  | 0, _, _ => rfl
  | f + 1, g, pos => by
    unfold scanLoop
    rw [scanStep_dress]
    cases scanStep r g pos with
    | err c => rfl
    | ub => rfl
    | ok x =>
      cases x with
      | finished => rfl
      | cluster a b c => rfl
      | skip g' p' => exact scanLoop_dress ts p f g' p'

/-- The position in the segment does not matter. -/
theorem scanLoop_pos (p : Int) (f : Nat) (g : ReadSegment) (pos : Nat) :
    scanLoop r f { g with pos := p } pos = scanLoop r f g pos := by
  have h := scanLoop_dress (r := r) g.tracks p f g pos
  have h' := scanLoop_dress (r := r) g.tracks g.pos f g pos
  exact h.trans h'.symm

theorem scanStep_far {g g' : ReadSegment} {pos pos' : Nat} (h : scanStep r g pos = .ok (.skip g' pos')) : pos + 2 ≤ pos' := by
  unfold scanStep at h
  split at h
  · cases h
  simp only [Res.bind_eq_ok, Res.orErr_eq_ok] at h
  obtain ⟨_, -, ⟨id, len⟩, hid, _, -, ⟨size, len2⟩, hsz, h⟩ := h
  obtain ⟨b1, -, -, e1⟩ := readID_first hid
  obtain ⟨b2, -, -, e2⟩ := readUInt_first hsz
  have := announced_pos b1
  have := announced_pos b2
  simp only at h
  split at h
  · cases h; omega
  simp only [Res.bind_eq_ok] at h
  obtain ⟨_, -, h⟩ := h
  split at h
  · simp only [Res.bind_eq_ok] at h
    obtain ⟨_, -, h⟩ := h
    cases h; omega
  split at h
  · simp only [Res.bind_eq_ok] at h
    obtain ⟨_, -, h⟩ := h
    cases h; omega
  · cases h

theorem scanStep_behind {g : ReadSegment} {pos : Nat} (h : r.data.length < pos + 1) :
    scanStep r g pos = if atEnd r pos ∨ reached g.stop pos then .ok .finished else .err E_BUFFER_NOT_FULL := by
  unfold scanStep fieldIn
  rw [Res.refuse_pos (by omega)]
  rfl

theorem scanLoop_fuel : ∀ (f F : Nat) (g : ReadSegment) (pos : Nat), r.data.length + 1 ≤ f + pos → r.data.length + 1 ≤ F + pos →
    scanLoop r f g pos = scanLoop r F g pos
  | 0, 0, _, _, _, _ => rfl
  | 0, F + 1, g, pos, h1, _ => by
    unfold scanLoop
    rw [scanStep_behind (by omega)]
    by_cases hc : atEnd r pos ∨ reached g.stop pos
    · rw [if_pos hc, if_pos hc]
    · rw [if_neg hc, if_neg hc]
  | f + 1, 0, g, pos, _, h2 => by
    unfold scanLoop
    rw [scanStep_behind (by omega)]
    by_cases hc : atEnd r pos ∨ reached g.stop pos
    · rw [if_pos hc, if_pos hc]
    · rw [if_neg hc, if_neg hc]
  | f + 1, F + 1, g, pos, h1, h2 => by
    unfold scanLoop
    cases hs : scanStep r g pos with
    | err c => rfl
    | ub => rfl
    | ok x =>
      cases x with
      | finished => rfl
      | cluster a b c => rfl
      | skip g' p' =>
        have := scanStep_far hs
        exact scanLoop_fuel f F g' p' (by omega) (by omega)

/-- After the loop, the loop ends where it is. -/
theorem scanLoop_again : ∀ (f : Nat) (g : ReadSegment) (pos : Nat), r.data.length + 1 ≤ f + pos →
    ∃ p : Nat, (scanLoop r f g pos).1.pos = p ∧
      scanLoop r (r.data.length + 1 - p) (scanLoop r f g pos).1 p = scanLoop r f g pos
  | 0, g, pos, h => ⟨pos, rfl, by
      rw [show r.data.length + 1 - pos = 0 by omega]
      rfl⟩
  | f + 1, g, pos, h => by
    have stays : (scanLoop r (f + 1) g pos).1 = { g with pos := (pos : Int) } → ∃ p : Nat, (scanLoop r (f + 1) g pos).1.pos = p ∧
        scanLoop r (r.data.length + 1 - p) (scanLoop r (f + 1) g pos).1 p = scanLoop r (f + 1) g pos := fun e => by
      refine ⟨pos, by rw [e], ?_⟩
      rw [e, scanLoop_pos]
      exact scanLoop_fuel _ _ _ _ (by omega) (by omega)
    cases hs : scanStep r g pos with
    | err c => exact stays (by unfold scanLoop; rw [hs])
    | ub => exact stays (by unfold scanLoop; rw [hs])
    | ok x =>
      cases x with
      | finished => exact stays (by unfold scanLoop; rw [hs])
      | cluster a b c => exact stays (by unfold scanLoop; rw [hs])
      | skip g' p' =>
        have := scanStep_far hs
        have e : scanLoop r (f + 1) g pos = scanLoop r f g' p' := by rw [scanLoop, hs]
        rw [e]
        exact scanLoop_again f g' p' (by omega)

/-- The loop on the two readers. -/
theorem scanLoop_both (h : r.Ext R) : ∀ (f F : Nat) (g : ReadSegment) (pos : Nat), r.data.length + 1 ≤ f + pos →
    R.data.length + 1 ≤ F + pos →
    (scanLoop r f g pos = scanLoop R F g pos ∧ Settled (scanLoop r f g pos).2) ∨
    (∃ g1 c d, ¬ Waits c ∧ scanLoop r f g pos = (g1, .err c) ∧ scanLoop R F g pos = (g1, .err d)) ∨
    ∃ g1 c, ∃ p : Nat, Waits c ∧ scanLoop r f g pos = (g1, .err c) ∧ g1.pos = p ∧
      scanLoop R (R.data.length + 1 - p) g1 p = scanLoop R F g pos := by
  intro f
  have hl := h.len
  have hat : ∀ p, atEnd R p = atEnd r p := fun p => by unfold atEnd; rw [h.total]
  have wait : ∀ (F : Nat) (g : ReadSegment) (pos : Nat) (c : Int), R.data.length + 1 ≤ F + pos → Waits c →
      ∃ (g1 : ReadSegment) (c' : Int) (p : Nat), Waits c' ∧ ({ g with pos := (pos : Int) }, Res.err (α := Option (Nat × Nat × Option Nat)) c) = (g1, .err c') ∧
        g1.pos = p ∧ scanLoop R (R.data.length + 1 - p) g1 p = scanLoop R F g pos := fun F g pos c hF hc =>
    ⟨_, c, pos, hc, rfl, rfl, (scanLoop_pos _ _ _ _).trans (scanLoop_fuel _ _ _ _ (by omega) (by omega))⟩
  induction f with
  | zero =>
    intro F g pos hf hF
    by_cases hc : atEnd r pos ∨ reached g.stop pos
    · left
      rw [scanLoop_fuel F (F + 1) g pos hF (by omega)]
      have e : scanStep R g pos = .ok .finished := by
        unfold scanStep
        rw [hat, if_pos hc]
      unfold scanLoop
      rw [if_pos hc, e]
      exact ⟨rfl, .ok _⟩
    · right; right
      have e : scanLoop r 0 g pos = ({ g with pos := pos }, .err E_BUFFER_NOT_FULL) := by unfold scanLoop; rw [if_neg hc]
      rw [e]
      exact wait F g pos _ hF waits_full
  | succ f ih =>
    intro F g pos hf hF
    rw [scanLoop_fuel F (F + 1) g pos hF (by omega)]
    have ha := scanStep_agree h g pos
    cases hs : scanStep r g pos with
    | ub =>
      left
      rw [hs] at ha
      generalize hS : scanStep R g pos = X at ha
      cases ha
      unfold scanLoop
      rw [hs, hS]
      exact ⟨rfl, .ub⟩
    | err c =>
      rw [hs] at ha
      have e : scanLoop r (f + 1) g pos = ({ g with pos := pos }, .err c) := by unfold scanLoop; rw [hs]
      rw [e]
      by_cases hw : Waits c
      · exact .inr (.inr (wait (F + 1) g pos _ (by omega) hw))
      generalize hS : scanStep R g pos = X at ha
      cases ha with
      | same =>
        left
        unfold scanLoop
        rw [hS]
        exact ⟨rfl, .err hw⟩
      | waits hc X => exact absurd hc hw
      | errs c d =>
        right; left
        exact ⟨_, c, d, hw, rfl, by unfold scanLoop; rw [hS]⟩
    | ok x =>
      have hS := ha.ok hs
      cases x with
      | finished => left; unfold scanLoop; rw [hs, hS]; exact ⟨rfl, .ok _⟩
      | cluster a b c => left; unfold scanLoop; rw [hs, hS]; exact ⟨rfl, .ok _⟩
      | skip g' p' =>
        have := scanStep_far hs
        have e1 : scanLoop r (f + 1) g pos = scanLoop r f g' p' := by rw [scanLoop, hs]
        have e2 : scanLoop R (F + 1) g pos = scanLoop R F g' p' := by rw [scanLoop, hS]
        rw [e1, e2]
        exact ih F g' p' (by omega) (by omega)

/-! ### Clusters that have been loaded, or not -/

theorem ReadCluster.load_kept {c c' : ReadCluster} (h : c.load r = .ok c') : c'.timecode.isSome = true ∧ c'.entries = c.entries := by
  unfold ReadCluster.load at h
  split at h
  · cases h
    exact ⟨‹_›, rfl⟩
  · simp only [Res.bind_eq_ok] at h
    obtain ⟨_, -, _, -, _, -, ⟨id, len⟩, -, _, -, _, -, ⟨size, len2⟩, -, _, -, ⟨p, a⟩, -, _, -, h⟩ := h
    simp only at h
    split at h
    · cases h
    · simp only [Res.bind_eq_ok] at h
      obtain ⟨_, -, h⟩ := h
      cases h
      exact ⟨rfl, rfl⟩

theorem ReadCluster.load_loaded {c : ReadCluster} (h : c.timecode.isSome = true) : c.load r = .ok c := by
  unfold ReadCluster.load
  rw [if_pos h]

theorem ReadCluster.kept_entries (c : ReadCluster) : (c.kept r).entries = c.entries := by
  unfold ReadCluster.kept
  split
  · exact (ReadCluster.load_kept ‹_›).2
  · rfl

/-- What has been loaded on the smaller reader is what the larger one would load. -/
theorem ReadCluster.load_again (h : r.Ext R) (c : ReadCluster) : (c.kept r).load R = c.load R := by
  unfold ReadCluster.kept
  split
  · rename_i c' hc
    rw [(c.load_agree h).ok hc, ReadCluster.load_loaded (ReadCluster.load_kept hc).1]
  · rfl

theorem ReadCluster.parse_again (h : r.Ext R) (c : ReadCluster) : (c.kept r).parse R = c.parse R := by
  unfold ReadCluster.parse
  rw [c.load_again h]

theorem ReadCluster.kept_again (h : r.Ext R) (c : ReadCluster) : (c.kept r).kept R = c.kept R := by
  unfold ReadCluster.kept
  have e := c.load_again h
  unfold ReadCluster.kept at e
  rw [e]
  cases hr : c.load r with
  | ok c' => rw [(c.load_agree h).ok hr]
  | err x => rfl
  | ub => rfl

/-- Loading on the larger reader what could not be loaded on the smaller one for other reasons than missing data. -/
theorem ReadCluster.kept_same (h : r.Ext R) {c : ReadCluster} {x : Int} (hp : c.parse r = .err x) (hx : ¬ Waits x) :
    c.kept r = c.kept R := by
  have ha := c.load_agree h
  unfold ReadCluster.kept
  cases hr : c.load r with
  | ok c' => rw [ha.ok hr]
  | err y =>
    have : y = x := by
      unfold ReadCluster.parse at hp
      rw [hr] at hp
      cases hp
      rfl
    subst this
    rw [hr] at ha
    generalize c.load R = X at ha
    cases ha with
    | same => rfl
    | waits hc X => exact absurd hc hx
    | errs c d => rfl
  | ub =>
    rw [hr] at ha
    generalize c.load R = X at ha
    cases ha
    rfl

/-- How `Parse` compares. -/
theorem ReadCluster.parse_cases (h : r.Ext R) (c : ReadCluster) :
    (c.parse r = c.parse R ∧ Settled (c.parse r) ∧ (∀ x, c.parse r = .err x → c.kept r = c.kept R)) ∨
    (∃ x y, ¬ Waits x ∧ c.parse r = .err x ∧ c.parse R = .err y ∧ c.kept r = c.kept R) ∨
    ∃ x, Waits x ∧ c.parse r = .err x := by
  have ha := c.parse_agree h
  cases hr : c.parse r with
  | ok y => left; exact ⟨((ha.ok hr)).symm, .ok _, fun x e => (by cases e)⟩
  | ub =>
    left
    rw [hr] at ha
    generalize c.parse R = X at ha
    cases ha
    exact ⟨rfl, .ub, fun x e => (by cases e)⟩
  | err x =>
    by_cases hx : Waits x
    · exact .inr (.inr ⟨x, hx, rfl⟩)
    · have hk := ReadCluster.kept_same h hr hx
      rw [hr] at ha
      generalize hR : c.parse R = X at ha
      cases ha with
      | same => exact .inl ⟨rfl, .err hx, fun _ _ => hk⟩
      | waits hc X => exact absurd hc hx
      | errs x y => exact .inr (.inl ⟨x, y, hx, rfl, rfl, hk⟩)

theorem ReadSegment.loadUnknownSize_redo (h : r.Ext R) (g : ReadSegment) (hub : (g.loadUnknownSize R).2 ≠ .ub) :
    Redo (fun q g => g.loadUnknownSize q) r R g := by
  cases hu : g.unknown with
  | false => exact .same (by simp only [ReadSegment.loadUnknownSize, hu]) (by simp only [ReadSegment.loadUnknownSize, hu]; exact .failed)
  | true =>
    cases hl : g.clusters.getLast? with
    | none =>
      exact .same (by simp only [ReadSegment.loadUnknownSize, hu, hl])
        (by simp only [ReadSegment.loadUnknownSize, hu, hl]; exact .failed)
    | some c =>
      rcases c.parse_cases h with ⟨e, hset, hk⟩ | ⟨x, y, hn, e1, e2, hk⟩ | ⟨x, hx, e⟩
      · refine .same ?_ ?_
        rotate_left
        · simp only [ReadSegment.loadUnknownSize, hu, hl]
          cases hp : c.parse r with
          | err x => exact .err (hset x hp)
          | ub => exact .ub
          | ok y =>
            obtain ⟨c', b⟩ := y
            cases b with
            | false => exact .ok _
            | true => cases hz : c'.size <;> simp only [hz] <;> first | exact .invalid | exact .ok _
        simp only [ReadSegment.loadUnknownSize, hu, hl, ← e]
        cases hp : c.parse r with
        | err x => simp only [hk x hp]
        | ub => rfl
        | ok y =>
          obtain ⟨c', b⟩ := y
          cases b <;> rfl
      · refine .errs x y hn ?_ ?_ ?_
        · simp only [ReadSegment.loadUnknownSize, hu, hl, e1, e2, hk]
        · simp only [ReadSegment.loadUnknownSize, hu, hl, e1]
        · simp only [ReadSegment.loadUnknownSize, hu, hl, e2]
      · have e1 : g.loadUnknownSize r = ({ g with clusters := g.clusters.dropLast ++ [c.kept r] }, .err x) := by
          simp only [ReadSegment.loadUnknownSize, hu, hl, e]
        refine .wait x hx (by simp only [e1]) ?_
        simp only [e1]
        simp only [ReadSegment.loadUnknownSize, hu, hl, List.getLast?_concat, List.dropLast_concat, c.parse_again h, c.kept_again h]
        cases hp : c.parse R with
        | err x => rfl
        | ok y =>
          obtain ⟨c', b⟩ := y
          cases b with
          | false => rfl
          | true => cases hz : c'.size <;> simp only [hz]
        | ub => exact absurd (by simp only [ReadSegment.loadUnknownSize, hu, hl, hp]) hub

theorem ReadSegment.takeCluster_ext (h : r.Ext R) (g : ReadSegment) (a b : Nat) (n : Option Nat) (has : Bool) :
    g.takeCluster r a b n has = g.takeCluster R a b n has := by
  unfold ReadSegment.takeCluster atEnd
  rw [h.total]

theorem ReadSegment.takeCluster_settled (g : ReadSegment) (a b : Nat) (n : Option Nat) (has : Bool) :
    Settled (g.takeCluster r a b n has).2 := by
  unfold ReadSegment.takeCluster
  cases has with
  | true =>
    cases n with
    | none => exact .ok _
    | some n =>
      simp only [if_true]
      split
      · exact .invalid
      · exact .ok _
  | false =>
    simp only [Bool.false_eq_true, if_false]
    repeat' split
    all_goals exact .ok _

theorem ReadSegment.doLoadCluster_redo (h : r.Ext R) (g : ReadSegment) (hub : (g.doLoadCluster R).2 ≠ .ub) :
    Redo (fun q g => g.doLoadCluster q) r R g := by
  have hl := h.len
  have h1 := h.less
  have h2 := h.sane
  have n1 : ¬ (r.total ≥ 0 ∧ (r.data.length : Int) > r.total) := by omega
  have n2 : ¬ (R.total ≥ 0 ∧ (R.data.length : Int) > R.total) := by omega
  by_cases hp : g.pos < 0
  · have e : ∀ (q : Rdr) (k : ReadSegment), k.pos < 0 → k.doLoadCluster q = k.loadUnknownSize q := fun q k hk => by
      unfold ReadSegment.doLoadCluster
      rw [if_pos hk]
    rw [e R g hp] at hub
    cases g.loadUnknownSize_redo h hub with
    | same he hs => exact .same (by simp only [e _ g hp]; exact he) (by simp only [e _ g hp]; exact hs)
    | errs c d hn he hc hd =>
      exact .errs c d hn (by simp only [e _ g hp]; exact he) (by simp only [e _ g hp]; exact hc) (by simp only [e _ g hp]; exact hd)
    | wait c hw hc he =>
      refine .wait c hw (by simp only [e _ g hp]; exact hc) ?_
      have hpos : (g.loadUnknownSize r).1.pos < 0 := by
        try simp only at hc
        revert hc
        unfold ReadSegment.loadUnknownSize
        repeat' split
        all_goals first | exact fun _ => hp | (intro hc; cases hc)
      simp only [e _ g hp, e _ _ hpos]
      exact he
  · have eq : ∀ (q : Rdr) (k : ReadSegment) (p : Nat), ¬ (q.total ≥ 0 ∧ (q.data.length : Int) > q.total) → k.pos = p →
        k.doLoadCluster q = (match scanLoop q (q.data.length + 1 - p) k p with
          | (g, .err c) => (g, .err c)
          | (g, .ub) => (g, .ub)
          | (g, .ok none) => (g, .ok 1)
          | (g, .ok (some (idpos, pos, size))) =>
            match hasBlockEntries q g.stop idpos with
            | .err c => (g, .err c)
            | .ub => (g, .ub)
            | .ok has => g.takeCluster q idpos pos size has) := fun q k p hq hk => by
      unfold ReadSegment.doLoadCluster
      rw [if_neg (by omega), if_neg hq, hk, Int.toNat_natCast]
      rfl
    obtain ⟨p, hpos⟩ : ∃ p : Nat, g.pos = p := ⟨g.pos.toNat, by omega⟩
    have er := eq r g p n1 hpos
    have eR := eq R g p n2 hpos
    rcases scanLoop_both h (r.data.length + 1 - p) (R.data.length + 1 - p) g p (by omega) (by omega) with
      ⟨he, hset⟩ | ⟨g1, c, d, hn, e1, e2⟩ | ⟨g1, c, p1, hw, e1, hp1, e2⟩
    · obtain ⟨p1, hp1, hagain⟩ := scanLoop_again (r := R) (R.data.length + 1 - p) g p (by omega)
      rw [he] at er hset
      generalize scanLoop R (R.data.length + 1 - p) g p = y at er eR hp1 hagain hset
      obtain ⟨g1, x⟩ := y
      cases x with
      | err c => exact .same (er.trans eR.symm) (by rw [er]; exact .err (hset c rfl))
      | ub => exact .same (er.trans eR.symm) (by rw [er]; exact .ub)
      | ok x =>
        cases x with
        | none => exact .same (er.trans eR.symm) (by rw [er]; exact .ok _)
        | some x =>
          obtain ⟨idpos, pos, size⟩ := x
          try simp only at er eR hp1 hagain
          have ha := hasBlockEntries_agree h g1.stop idpos
          cases hb : hasBlockEntries r g1.stop idpos with
          | ok b =>
            rw [ha.ok hb] at eR
            rw [hb] at er
            refine .same (by rw [er, eR]; exact g1.takeCluster_ext h _ _ _ _) ?_
            rw [er]
            exact g1.takeCluster_settled _ _ _ _
          | ub =>
            rw [hb] at ha er
            generalize hasBlockEntries R g1.stop idpos = X at ha eR
            cases ha
            exact .same (er.trans eR.symm) (by rw [er]; exact .ub)
          | err c =>
            rw [hb] at ha er
            try simp only at er
            have again : g1.doLoadCluster R = g.doLoadCluster R := by
              rw [eq R g1 p1 n2 hp1, hagain, eR]
            by_cases hw : Waits c
            · exact .wait c hw (by rw [er]) (by rw [er]; exact again)
            generalize hX : hasBlockEntries R g1.stop idpos = X at ha eR
            cases ha with
            | same => exact .same (er.trans eR.symm) (by rw [er]; exact .err hw)
            | waits hc X => exact absurd hc hw
            | errs c d => exact .errs c d hw (by rw [er, eR]) (by rw [er]) (by rw [eR])
    · rw [e1] at er
      rw [e2] at eR
      exact .errs c d hn (by rw [er, eR]) (by rw [er]) (by rw [eR])
    · rw [e1] at er
      refine .wait c hw (by rw [er]) ?_
      rw [er]
      show g1.doLoadCluster R = g.doLoadCluster R
      rw [eq R g1 p1 n2 hp1, e2, eR]

/-- More fuel does not change an answer. -/
theorem ReadSegment.loadCluster_fuel : ∀ (f : Nat) (g : ReadSegment), (ReadSegment.loadCluster r f g).2 ≠ .ub →
    ReadSegment.loadCluster r (f + 1) g = ReadSegment.loadCluster r f g
  | 0, _, h => absurd rfl h
  | f + 1, g, h => by
    rw [ReadSegment.loadCluster, ReadSegment.loadCluster]
    rw [ReadSegment.loadCluster] at h
    generalize g.doLoadCluster r = y at h ⊢
    obtain ⟨g', x⟩ := y
    cases x with
    | err c => rfl
    | ub => rfl
    | ok n =>
      try simp only at h ⊢
      by_cases hn : n ≤ 1
      · rw [if_pos hn, if_pos hn]
      · rw [if_neg hn] at h
        rw [if_neg hn, if_neg hn]
        exact ReadSegment.loadCluster_fuel f g' h

theorem ReadSegment.loadCluster_redo (h : r.Ext R) : ∀ (f : Nat) (g : ReadSegment), (ReadSegment.loadCluster R f g).2 ≠ .ub →
    Redo (fun q g => ReadSegment.loadCluster q f g) r R g
  | 0, _, hub => absurd rfl hub
  | f + 1, g, hub => by
    have e : ∀ (q : Rdr) (k : ReadSegment), ReadSegment.loadCluster q (f + 1) k = (match k.doLoadCluster q with
      | (g', .ok n) => if n ≤ 1 then (g', .ok (n = 0 : Bool)) else ReadSegment.loadCluster q f g'
      | (g', .err c) => (g', .err c)
      | (g', .ub) => (g', .ub)) := fun q k => by rw [ReadSegment.loadCluster]; rfl
    have er := e r g
    have eR := e R g
    have hd : (g.doLoadCluster R).2 ≠ .ub := by
      intro hd
      apply hub
      rw [eR]
      generalize g.doLoadCluster R = y at hd
      obtain ⟨g', x⟩ := y
      try simp only at hd
      subst hd
      rfl
    cases g.doLoadCluster_redo h hd with
    | errs c d hn he hc hd =>
      try simp only at he hc hd
      generalize g.doLoadCluster r = y at er he hc
      generalize g.doLoadCluster R = Y at eR he hd
      obtain ⟨g1, x⟩ := y
      obtain ⟨G1, X⟩ := Y
      try simp only at he hc hd
      subst he hc hd
      exact .errs c d hn (by rw [er, eR]) (by rw [er]) (by rw [eR])
    | wait c hw hc he =>
      try simp only at hc he
      have e1 := e R (g.doLoadCluster r).1
      rw [he, ← eR] at e1
      generalize g.doLoadCluster r = y at er hc e1
      obtain ⟨g1, x⟩ := y
      try simp only at hc
      subst hc
      try simp only at er e1
      exact .wait c hw (by rw [er]) (by rw [er]; exact e1)
    | same he hs =>
      try simp only at he
      rw [he] at er hs
      generalize g.doLoadCluster R = Y at er eR hs
      obtain ⟨g1, x⟩ := Y
      cases x with
      | err c => exact .same (er.trans eR.symm) (by rw [er]; exact .err (hs c rfl))
      | ub => exact .same (er.trans eR.symm) (by rw [er]; exact .ub)
      | ok n =>
        try simp only at er eR
        by_cases hn : n ≤ 1
        · rw [if_pos hn] at er eR
          exact .same (er.trans eR.symm) (by rw [er]; exact .ok _)
        · rw [if_neg hn] at er eR
          have hub' : (ReadSegment.loadCluster R f g1).2 ≠ .ub := by rw [← eR]; exact hub
          cases ReadSegment.loadCluster_redo h f g1 hub' with
          | same he hs => exact .same (by rw [er, eR]; exact he) (by rw [er]; exact hs)
          | errs c d hn he hc hd => exact .errs c d hn (by rw [er, eR]; exact he) (by rw [er]; exact hc) (by rw [eR]; exact hd)
          | wait c hw hc he =>
            refine .wait c hw (by rw [er]; exact hc) ?_
            try simp only at he ⊢
            rw [er, eR, ReadSegment.loadCluster_fuel _ _ (by rw [he]; exact hub'), he]

/-! ### Calls on a cluster -/

theorem ReadCluster.getLast_fuel : ∀ (f : Nat) (c : ReadCluster), (ReadCluster.getLast r f c).2 ≠ .ub →
    ReadCluster.getLast r (f + 1) c = ReadCluster.getLast r f c
  | 0, _, h => absurd rfl h
  | f + 1, c, h => by
    rw [ReadCluster.getLast, ReadCluster.getLast]
    rw [ReadCluster.getLast] at h
    generalize c.parse r = y at h ⊢
    cases y with
    | err c => rfl
    | ub => rfl
    | ok x =>
      obtain ⟨c', b⟩ := x
      cases b with
      | true => rfl
      | false => exact ReadCluster.getLast_fuel f c' h

theorem ReadCluster.getLast_redo (h : r.Ext R) : ∀ (f : Nat) (c : ReadCluster), (ReadCluster.getLast R f c).2 ≠ .ub →
    Redo (fun q c => ReadCluster.getLast q f c) r R c
  | 0, _, hub => absurd rfl hub
  | f + 1, c, hub => by
    have e : ∀ (q : Rdr) (k : ReadCluster), ReadCluster.getLast q (f + 1) k = (match k.parse q with
      | .ok (c', false) => ReadCluster.getLast q f c'
      | .ok (c', true) => (c', .ok (c'.entries.getD []).getLast?)
      | .err e => (k.kept q, .err e)
      | .ub => (k, .ub)) := fun q k => by rw [ReadCluster.getLast]; rfl
    have er := e r c
    have eR := e R c
    rcases c.parse_cases h with ⟨he, hset, hk⟩ | ⟨x, y, hn, e1, e2, hk⟩ | ⟨x, hx, he⟩
    · rw [he] at er
      cases hp : c.parse R with
      | err x =>
        rw [hp] at er eR
        exact .same (by rw [er, eR]; simp only [hk x (he.trans hp)]) (by rw [er]; exact .err (hset x (he.trans hp)))
      | ub =>
        rw [hp] at er eR
        exact .same (er.trans eR.symm) (by rw [er]; exact .ub)
      | ok y =>
        rw [hp] at er eR
        obtain ⟨c', b⟩ := y
        cases b with
        | true => exact .same (er.trans eR.symm) (by rw [er]; exact .ok _)
        | false =>
          try simp only at er eR
          have hub' : (ReadCluster.getLast R f c').2 ≠ .ub := by rw [← eR]; exact hub
          cases ReadCluster.getLast_redo h f c' hub' with
          | same he hs => exact .same (by rw [er, eR]; exact he) (by rw [er]; exact hs)
          | errs c d hn he hc hd => exact .errs c d hn (by rw [er, eR]; exact he) (by rw [er]; exact hc) (by rw [eR]; exact hd)
          | wait c hw hc he =>
            refine .wait c hw (by rw [er]; exact hc) ?_
            try simp only at he ⊢
            rw [er, eR, ReadCluster.getLast_fuel _ _ (by rw [he]; exact hub'), he]
    · rw [e1] at er
      rw [e2] at eR
      exact .errs x y hn (by rw [er, eR, hk]) (by rw [er]) (by rw [eR])
    · rw [he] at er
      try simp only at er
      refine .wait x hx (by rw [er]) ?_
      try simp only
      rw [er]
      try simp only
      rw [e R (c.kept r), c.parse_again h, c.kept_again h, eR]
      cases hp : c.parse R with
      | err x => rfl
      | ok y =>
        obtain ⟨c', b⟩ := y
        cases b <;> rfl
      | ub =>
        rw [hp] at eR
        exact absurd (by rw [eR]) hub

end Verif.Par

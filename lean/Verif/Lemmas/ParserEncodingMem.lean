/-
Lemmas for C91: every allocation of the content encodings has one owner.
-/
import Verif.Spec.EncodingMem
import Verif.Lemmas.MuxerTrackBuild

namespace Verif.Par.Enc
open Verif Verif.Spec Verif.Mux.Build

def encrA (e : Encr) : List Nat := e.keyId.toList ++ e.signature.toList ++ e.sigKeyId.toList

def itemA {α : Type} (g : α → List Nat) (p : Nat × α) : List Nat := p.1 :: g p.2

def ptrsA {α : Type} (g : α → List Nat) (x : Ptrs α) : List Nat := x.addr.toList ++ x.items.flatMap (itemA g)

def encodingA (e : Encoding) : List Nat := ptrsA Option.toList e.comps ++ ptrsA encrA e.encrs

theorem destroyEncr_frees : Frees encrA destroyEncr := by
  intro x m f h
  obtain ⟨m1, e1, h1⟩ := free_spec (p := x.keyId) (f := fun a => x.signature.toList.count a + (x.sigKeyId.toList.count a + f a))
    (h.of fun a => by simp only [encrA, List.count_append]; omega)
  obtain ⟨m2, e2, h2⟩ := free_spec h1
  obtain ⟨m3, e3, h3⟩ := free_spec h2
  refine ⟨m3, ?_, h3⟩
  unfold destroyEncr
  rw [e1, Res.bind_ok, e2, Res.bind_ok, e3]

theorem destroyComp_frees : Frees Option.toList destroyComp := fun _ _ _ h => free_spec h

theorem deleteItems_spec {α : Type} {g : α → List Nat} {destroy : α → Mem → Res Mem} {P : α → Prop}
    (hd : ∀ x, P x → ∀ m f, Holds m (fun a => (g x).count a + f a) → ∃ m', destroy x m = .ok m' ∧ Holds m' f) :
    ∀ {xs : List (Nat × α)} {m : Mem} {f : Nat → Nat}, (∀ p ∈ xs, P p.2) → Holds m (fun a => (xs.flatMap (itemA g)).count a + f a) →
    ∃ m', deleteItems destroy xs m = .ok m' ∧ Holds m' f
  | [], m, f, _, h => ⟨m, rfl, h.of fun a => by simp⟩
  | (b, x) :: xs, m, f, hp, h => by
    obtain ⟨m1, e1, h1⟩ := hd x (hp (b, x) (by simp)) m (fun a => (some b).toList.count a + ((xs.flatMap (itemA g)).count a + f a))
      (h.of fun a => by simp only [List.flatMap_cons, itemA, List.count_append, List.count_cons, Option.toList_some, List.count_nil]; omega)
    obtain ⟨m2, e2, h2⟩ := free_spec h1
    obtain ⟨m3, e3, h3⟩ := deleteItems_spec hd (fun p hpx => hp p (by simp [hpx])) h2
    refine ⟨m3, ?_, h3⟩
    unfold deleteItems
    rw [e1, Res.bind_ok, e2, Res.bind_ok, e3]

/-- The end of an array is null if the array is. -/
def Ptrs.Ends {α : Type} (x : Ptrs α) : Prop := x.addr = none → x.ended = false

theorem ptrs_delete {α : Type} {g : α → List Nat} {destroy : α → Mem → Res Mem} {P : α → Prop}
    (hd : ∀ x, P x → ∀ m f, Holds m (fun a => (g x).count a + f a) → ∃ m', destroy x m = .ok m' ∧ Holds m' f)
    {x : Ptrs α} {m : Mem} {f : Nat → Nat} (hx : x.Ends) (hp : ∀ p ∈ x.items, P p.2) (h : Holds m (fun a => (ptrsA g x).count a + f a)) :
    ∃ m', x.delete destroy m = .ok m' ∧ Holds m' f := by
  obtain ⟨m1, e1, h1⟩ := deleteItems_spec hd (f := fun a => x.addr.toList.count a + f a) hp
    (h.of fun a => by simp only [ptrsA, List.count_append]; omega)
  obtain ⟨m2, e2, h2⟩ := free_spec h1
  refine ⟨m2, ?_, h2⟩
  unfold Ptrs.delete
  rw [if_neg (fun c => by have := hx c.1; rw [c.2] at this; cases this), e1, Res.bind_ok, e2]

def Encoding.Ends (e : Encoding) : Prop := e.comps.Ends ∧ e.encrs.Ends

theorem encoding_destroy {e : Encoding} (he : e.Ends) (m : Mem) (f : Nat → Nat) (h : Holds m (fun a => (encodingA e).count a + f a)) :
    ∃ m', e.destroy m = .ok m' ∧ Holds m' f := by
  obtain ⟨m1, e1, h1⟩ := ptrs_delete (P := fun _ => True) (fun x _ => destroyComp_frees x) (f := fun a => (ptrsA encrA e.encrs).count a + f a)
    he.1 (fun _ _ => trivial) (h.of fun a => by simp only [encodingA, List.count_append]; omega)
  obtain ⟨m2, e2, h2⟩ := ptrs_delete (P := fun _ => True) (fun x _ => destroyEncr_frees x) he.2 (fun _ _ => trivial) h1
  refine ⟨m2, ?_, h2⟩
  unfold Encoding.destroy
  rw [e1, Res.bind_ok, e2]

theorem parseComp_spec {can : Nat → Bool} : ∀ {ps : List CompPart} {v : Bool} {s : Option Nat} {m : Mem} {f : Nat → Nat},
    Holds m (fun a => s.toList.count a + f a) →
    ∃ b s' m', parseComp can ps v s m = .ok (b, s', m') ∧ Holds m' fun a => s'.toList.count a + f a
  | [], v, s, m, f, h => ⟨v, s, m, rfl, h⟩
  | .algo ok :: ps, v, s, m, f, h => by
    unfold parseComp
    cases ok with
    | true => exact parseComp_spec h
    | false => exact ⟨_, _, _, rfl, h⟩
  | .settings size read :: ps, v, s, m, f, h => by
    unfold parseComp
    split
    · exact ⟨_, _, _, rfl, h⟩
    · cases ea : m.alloc can with
      | mk p m1 =>
        have h1 := alloc_spec h ea
        cases p with
        | none => exact ⟨_, _, _, rfl, h1.of fun a => by simp⟩
        | some b =>
          simp only
          obtain ⟨m2, e2, h2⟩ := free_spec h1
          cases read with
          | false => exact ⟨true, s, m2, by simp only [Bool.not_false, if_true]; rw [e2]; rfl, h2⟩
          | true =>
            simp only [Bool.not_true, Bool.false_eq_true, if_false]
            split
            · exact ⟨false, s, m2, by rw [e2]; rfl, h2⟩
            · rename_i hs
              have hs : s = none := Classical.byContradiction hs
              exact parseComp_spec (h1.of fun a => by simp [hs])
  | .other :: ps, v, s, m, f, h => by
    unfold parseComp
    exact parseComp_spec h
  | .bad :: ps, v, s, m, f, h => ⟨_, _, _, rfl, h⟩

theorem newData_spec {can : Nat → Bool} {size : Nat} {read : Bool} {old : Option Nat} {m : Mem} {f : Nat → Nat}
    (h : Holds m (fun a => old.toList.count a + f a)) :
    ∃ r b m', newData can size read old m = .ok (r, b, m') ∧ Holds m' fun a => b.toList.count a + f a := by
  obtain ⟨m1, e1, h1⟩ := free_spec h
  unfold newData
  rw [e1, Res.bind_ok]
  split
  · exact ⟨_, _, _, rfl, h1.of fun a => by simp⟩
  · cases ea : m1.alloc can with
    | mk p m2 =>
      have h2 := alloc_spec h1 ea
      cases p with
      | none => exact ⟨_, _, _, rfl, h2⟩
      | some b =>
        simp only
        cases read with
        | false =>
          obtain ⟨m3, e3, h3⟩ := free_spec h2
          exact ⟨some true, none, m3, by simp only [Bool.not_false, if_true]; rw [e3]; rfl, h3.of fun a => by simp⟩
        | true => exact ⟨none, some b, m2, rfl, h2⟩

theorem parseEncr_spec {can : Nat → Bool} : ∀ {ps : List EncrPart} {e : Encr} {m : Mem} {f : Nat → Nat},
    Holds m (fun a => (encrA e).count a + f a) →
    ∃ b e' m', parseEncr can ps e m = .ok (b, e', m') ∧ Holds m' fun a => (encrA e').count a + f a
  | [], e, m, f, h => ⟨true, e, m, rfl, h⟩
  | .algo ok :: ps, e, m, f, h => by
    unfold parseEncr
    cases ok with
    | true => exact parseEncr_spec h
    | false => exact ⟨_, _, _, rfl, h⟩
  | .keyId size read :: ps, e, m, f, h => by
    obtain ⟨r, b, m1, e1, h1⟩ := newData_spec (can := can) (size := size) (read := read) (old := e.keyId)
      (f := fun a => e.signature.toList.count a + e.sigKeyId.toList.count a + f a)
      (h.of fun a => by simp only [encrA, List.count_append]; omega)
    have h2 : Holds m1 fun a => (encrA { e with keyId := b }).count a + f a :=
      h1.of fun a => by simp only [encrA, List.count_append]; omega
    unfold parseEncr
    rw [e1, Res.bind_ok]
    cases r with
    | some ok => exact ⟨_, _, _, rfl, h2⟩
    | none => exact parseEncr_spec h2
  | .signature size read :: ps, e, m, f, h => by
    obtain ⟨r, b, m1, e1, h1⟩ := newData_spec (can := can) (size := size) (read := read) (old := e.signature)
      (f := fun a => e.keyId.toList.count a + e.sigKeyId.toList.count a + f a)
      (h.of fun a => by simp only [encrA, List.count_append]; omega)
    have h2 : Holds m1 fun a => (encrA { e with signature := b }).count a + f a :=
      h1.of fun a => by simp only [encrA, List.count_append]; omega
    unfold parseEncr
    rw [e1, Res.bind_ok]
    cases r with
    | some ok => exact ⟨_, _, _, rfl, h2⟩
    | none => exact parseEncr_spec h2
  | .sigKeyId size read :: ps, e, m, f, h => by
    obtain ⟨r, b, m1, e1, h1⟩ := newData_spec (can := can) (size := size) (read := read) (old := e.sigKeyId)
      (f := fun a => e.keyId.toList.count a + e.signature.toList.count a + f a)
      (h.of fun a => by simp only [encrA, List.count_append]; omega)
    have h2 : Holds m1 fun a => (encrA { e with sigKeyId := b }).count a + f a :=
      h1.of fun a => by simp only [encrA, List.count_append]; omega
    unfold parseEncr
    rw [e1, Res.bind_ok]
    cases r with
    | some ok => exact ⟨_, _, _, rfl, h2⟩
    | none => exact parseEncr_spec h2
  | .aes ok :: ps, e, m, f, h => by
    unfold parseEncr
    cases ok with
    | true => exact parseEncr_spec h
    | false => exact ⟨_, _, _, rfl, h⟩
  | .other :: ps, e, m, f, h => by
    unfold parseEncr
    exact parseEncr_spec h
  | .bad :: ps, e, m, f, h => ⟨_, _, _, rfl, h⟩

/-- There is room for `n` more. -/
def Ptrs.Room {α : Type} (x : Ptrs α) (n : Nat) : Prop := n = 0 ∨ x.addr ≠ none ∧ x.items.length + n ≤ x.room

theorem ptrs_push {α : Type} {g : α → List Nat} {x : Ptrs α} {n : Nat} (hr : x.Room (n + 1)) (he : x.Ends) (b : Nat) (v : α) :
    ∃ x', x.push b v = .ok x' ∧ x'.Room n ∧ x'.Ends ∧ x'.items = x.items ++ [(b, v)] ∧
      ∀ a, (ptrsA g x').count a = (ptrsA g x).count a + [b].count a + (g v).count a := by
  rcases hr with hr | ⟨hr, hn⟩
  · cases hr
  · refine ⟨{ x with items := x.items ++ [(b, v)] }, ?_, ?_, he, rfl, fun a => ?_⟩
    · unfold Ptrs.push
      rw [if_neg (by rintro (h | h); exact hr h; omega)]
    · right
      exact ⟨hr, by simp only [List.length_append, List.length_singleton]; omega⟩
    · simp only [ptrsA, List.flatMap_append, List.flatMap_cons, List.flatMap_nil, itemA, List.count_append, List.count_cons,
        List.count_nil, List.append_nil]
      omega

theorem parseParts_spec {can : Nat → Bool} : ∀ {ps : List EncPart} {e : Encoding} {m : Mem} {f : Nat → Nat}, e.Ends →
    e.comps.Room (ps.countP EncPart.isComp) → e.encrs.Room (ps.countP EncPart.isEncr) →
    Holds m (fun a => (encodingA e).count a + f a) →
    ∃ b e' m', parseParts can ps e m = .ok (b, e', m') ∧ e'.Ends ∧ Holds m' fun a => (encodingA e').count a + f a
  | [], e, m, f, he, _, _, h => ⟨true, e, m, rfl, he, h⟩
  | .scope ok :: ps, e, m, f, he, hc, hd, h => by
    unfold parseParts
    cases ok with
    | true => exact parseParts_spec he hc hd h
    | false => exact ⟨_, _, _, rfl, he, h⟩
  | .compression cs :: ps, e, m, f, he, hc, hd, h => by
    unfold parseParts
    cases ea : m.alloc can with
    | mk p m1 =>
      have h1 := alloc_spec h ea
      cases p with
      | none => exact ⟨_, _, _, rfl, he, h1.of fun a => by simp⟩
      | some b =>
        simp only
        obtain ⟨ok, s, m2, e2, h2⟩ := parseComp_spec (can := can) (ps := cs) (v := false) (s := none) (h1.of fun a => (by
          show _ = (none : Option Nat).toList.count a + ((some b).toList.count a + ((encodingA e).count a + f a)); simp))
        rw [e2, Res.bind_ok]
        cases ok with
        | false =>
          obtain ⟨m3, e3, h3⟩ := destroyComp_frees s m2 _ h2
          obtain ⟨m4, e4, h4⟩ := free_spec h3
          refine ⟨false, e, m4, ?_, he, h4⟩
          simp only [Bool.not_false, if_true]
          rw [e3, Res.bind_ok, e4]
          rfl
        | true =>
          obtain ⟨x, e3, hr, hx, -, hcount⟩ := ptrs_push (g := Option.toList) (n := ps.countP EncPart.isComp)
            (by rw [List.countP_cons_of_pos (by rfl)] at hc; exact hc) he.1 b s
          simp only [Bool.not_true, Bool.false_eq_true, if_false]
          rw [e3, Res.bind_ok]
          refine parseParts_spec ⟨hx, he.2⟩ hr ?_ (h2.of fun a => ?_)
          · rw [List.countP_cons_of_neg (by simp [EncPart.isEncr])] at hd
            exact hd
          · have := hcount a
            simp only [encodingA, List.count_append, Option.toList_some] at this ⊢
            omega
  | .encryption cs :: ps, e, m, f, he, hc, hd, h => by
    unfold parseParts
    cases ea : m.alloc can with
    | mk p m1 =>
      have h1 := alloc_spec h ea
      cases p with
      | none => exact ⟨_, _, _, rfl, he, h1.of fun a => by simp⟩
      | some b =>
        simp only
        obtain ⟨ok, s, m2, e2, h2⟩ := parseEncr_spec (can := can) (ps := cs) (e := {}) (h1.of fun a => (by
          show _ = (encrA {}).count a + ((some b).toList.count a + ((encodingA e).count a + f a)); simp [encrA]))
        rw [e2, Res.bind_ok]
        cases ok with
        | false =>
          obtain ⟨m3, e3, h3⟩ := destroyEncr_frees s m2 _ h2
          obtain ⟨m4, e4, h4⟩ := free_spec h3
          refine ⟨false, e, m4, ?_, he, h4⟩
          simp only [Bool.not_false, if_true]
          rw [e3, Res.bind_ok, e4]
          rfl
        | true =>
          obtain ⟨x, e3, hr, hx, -, hcount⟩ := ptrs_push (g := encrA) (n := ps.countP EncPart.isEncr)
            (by rw [List.countP_cons_of_pos (by rfl)] at hd; exact hd) he.2 b s
          simp only [Bool.not_true, Bool.false_eq_true, if_false]
          rw [e3, Res.bind_ok]
          refine parseParts_spec ⟨he.1, hx⟩ ?_ hr (h2.of fun a => ?_)
          · rw [List.countP_cons_of_neg (by simp [EncPart.isComp])] at hc
            exact hc
          · have := hcount a
            simp only [encodingA, List.count_append, Option.toList_some] at this ⊢
            omega
  | .other :: ps, e, m, f, he, hc, hd, h => by
    unfold parseParts
    exact parseParts_spec he hc hd h
  | .bad :: ps, e, m, f, he, _, _, h => ⟨_, _, _, rfl, he, h⟩

theorem newPtrs_spec {α : Type} {g : α → List Nat} {can : Nat → Bool} {n : Nat} {m m' : Mem} {r : Option (Ptrs α)} {f : Nat → Nat}
    (h : Holds m f) (e : newPtrs can n m = (r, m')) :
    match r with
    | none => (∃ k, can k = false) ∧ n ≠ 0 ∧ Holds m' f
    | some x => x.Ends ∧ x.Room n ∧ x.items = [] ∧ (n = 0 → x = {}) ∧ Holds m' fun a => (ptrsA g x).count a + f a := by
  unfold newPtrs at e
  split at e
  · rename_i hn
    cases e
    exact ⟨fun _ => rfl, Or.inl hn, rfl, fun _ => rfl, h.of fun a => by simp [ptrsA]⟩
  · rename_i hn
    cases ea : m.alloc can with
    | mk p m1 =>
      have h1 := alloc_spec h ea
      rw [ea] at e
      cases p with
      | none =>
        cases e
        refine ⟨⟨m.next, ?_⟩, hn, h1.of fun a => by simp⟩
        unfold Mem.alloc at ea
        split at ea
        · cases ea
        · rename_i hc
          exact Bool.eq_false_iff.mpr hc
      | some b =>
        cases e
        exact ⟨fun hc => (by cases hc), Or.inr ⟨by simp, by simp⟩, rfl, fun hc => absurd hc hn, h1.of fun a => by simp [ptrsA]⟩

/-- Memory is not short, or the encoding is not both. -/
def Harmless (can : Nat → Bool) (ps : List EncPart) : Prop :=
  Enough can ∨ ps.countP EncPart.isComp = 0 ∨ ps.countP EncPart.isEncr = 0

theorem parseEncoding_spec {can : Nat → Bool} {ps : List EncPart} {m : Mem} {f : Nat → Nat} (hs : Harmless can ps) (h : Holds m f) :
    ∃ b e m', parseEncoding can ps m = .ok (b, e, m') ∧ e.Ends ∧ Holds m' fun a => (encodingA e).count a + f a := by
  have h0 : ∀ {m : Mem}, Holds m f → Holds m fun a => (encodingA {}).count a + f a := fun h => h.of fun a => by simp [encodingA, ptrsA]
  have he : ({} : Encoding).Ends := ⟨fun _ => rfl, fun _ => rfl⟩
  unfold parseEncoding
  split
  · exact ⟨_, _, _, rfl, he, h0 h⟩
  · split
    · exact ⟨_, _, _, rfl, he, h0 h⟩
    · cases ec : newPtrs (α := Option Nat) can (ps.countP EncPart.isComp) m with
      | mk r m1 =>
        have h1 := newPtrs_spec (g := Option.toList) h ec
        cases r with
        | none => exact ⟨_, _, _, rfl, he, h0 h1.2.2⟩
        | some x =>
          simp only at h1 ⊢
          obtain ⟨hx, hr, -, hz, h1⟩ := h1
          cases ed : newPtrs (α := Encr) can (ps.countP EncPart.isEncr) m1 with
          | mk r m2 =>
            have h2 := newPtrs_spec (g := encrA) h1 ed
            cases r with
            | none =>
              obtain ⟨⟨k, hk⟩, hn, h2⟩ := h2
              have hx0 : x = {} := by
                rcases hs with hs | hs | hs
                · have := hs k
                  rw [hk] at this
                  cases this
                · exact hz hs
                · exact absurd hs hn
              subst hx0
              exact ⟨_, _, _, rfl, he, h2.of fun a => by simp [encodingA, ptrsA]⟩
            | some y =>
              simp only at h2 ⊢
              obtain ⟨hy, hr2, -, -, h2⟩ := h2
              exact parseParts_spec ⟨hx, hy⟩ hr hr2 (h2.of fun a => by simp only [encodingA, List.count_append]; omega)

theorem parseEach_spec {can : Nat → Bool} : ∀ {es : List EncsPart} {x : Ptrs Encoding} {m : Mem} {f : Nat → Nat},
    (∀ ps, EncsPart.encoding ps ∈ es → Harmless can ps) → x.Ends → (∀ p ∈ x.items, p.2.Ends) →
    x.Room (es.countP EncsPart.isEncoding) → Holds m (fun a => (ptrsA encodingA x).count a + f a) →
    ∃ b x' m', parseEach can es x m = .ok (b, x', m') ∧ x'.Ends ∧ (∀ p ∈ x'.items, p.2.Ends) ∧
      Holds m' fun a => (ptrsA encodingA x').count a + f a
  | [], x, m, f, _, he, hi, _, h => ⟨true, x, m, rfl, he, hi, h⟩
  | .encoding ps :: es, x, m, f, hs, he, hi, hr, h => by
    unfold parseEach
    cases ea : m.alloc can with
    | mk p m1 =>
      have h1 := alloc_spec h ea
      cases p with
      | none => exact ⟨_, _, _, rfl, he, hi, h1.of fun a => by simp⟩
      | some b =>
        simp only
        obtain ⟨ok, e, m2, e2, hee, h2⟩ := parseEncoding_spec (hs ps (by simp)) h1
        rw [e2, Res.bind_ok]
        cases ok with
        | false =>
          obtain ⟨m3, e3, h3⟩ := encoding_destroy hee m2 _ h2
          obtain ⟨m4, e4, h4⟩ := free_spec h3
          refine ⟨false, x, m4, ?_, he, hi, h4⟩
          simp only [Bool.not_false, if_true]
          rw [e3, Res.bind_ok, e4]
          rfl
        | true =>
          obtain ⟨x', e3, hr', hx', hit, hcount⟩ := ptrs_push (g := encodingA) (n := es.countP EncsPart.isEncoding)
            (by rw [List.countP_cons_of_pos (by rfl)] at hr; exact hr) he b e
          simp only [Bool.not_true, Bool.false_eq_true, if_false]
          rw [e3, Res.bind_ok]
          refine parseEach_spec (fun ps h => hs ps (by simp [h])) hx' (fun p hp => ?_) hr' (h2.of fun a => ?_)
          · rw [hit] at hp
            rcases List.mem_append.mp hp with hp | hp
            · exact hi p hp
            · rw [List.mem_singleton.mp hp]
              exact hee
          · have := hcount a
            simp only [Option.toList_some] at this ⊢
            omega
  | .other :: es, x, m, f, hs, he, hi, hr, h => by
    unfold parseEach
    exact parseEach_spec (fun ps h => hs ps (by simp [h])) he hi hr h
  | .bad :: es, x, m, f, _, he, hi, _, h => ⟨_, _, _, rfl, he, hi, h⟩

theorem parseEncodings_spec {can : Nat → Bool} {es : List EncsPart} (hs : ∀ ps, EncsPart.encoding ps ∈ es → Harmless can ps)
    {m : Mem} {f : Nat → Nat} (h : Holds m f) :
    ∃ b x m', parseEncodings can es m = .ok (b, x, m') ∧ x.Ends ∧ (∀ p ∈ x.items, p.2.Ends) ∧
      Holds m' fun a => (ptrsA encodingA x).count a + f a := by
  have h0 : ∀ {m : Mem}, Holds m f → Holds m fun a => (ptrsA encodingA {}).count a + f a := fun h => h.of fun a => by simp [ptrsA]
  have hi : ∀ p ∈ ({} : Ptrs Encoding).items, p.2.Ends := fun p hp => (by cases hp)
  unfold parseEncodings
  split
  · exact ⟨_, _, _, rfl, fun _ => rfl, hi, h0 h⟩
  · split
    · exact ⟨_, _, _, rfl, fun _ => rfl, hi, h0 h⟩
    · cases ec : newPtrs (α := Encoding) can (es.countP EncsPart.isEncoding) m with
      | mk r m1 =>
        have h1 := newPtrs_spec (g := encodingA) h ec
        cases r with
        | none => exact ⟨_, _, _, rfl, fun _ => rfl, hi, h0 h1.2.2⟩
        | some x =>
          obtain ⟨hx, hr, hit, -, h1⟩ := h1
          exact parseEach_spec hs hx (fun p hp => (by rw [hit] at hp; cases hp)) hr h1

theorem openAndClose_spec {can : Nat → Bool} {es : List EncsPart} (hs : ∀ ps, EncsPart.encoding ps ∈ es → Harmless can ps) :
    ∃ n m, openAndClose can es = .ok (n, m) ∧ m.live = [] := by
  obtain ⟨b, x, m, e, hx, hi, h⟩ := parseEncodings_spec hs (m := {}) (f := fun _ => 0) fun a => by simp
  obtain ⟨m', e', h'⟩ := ptrs_delete (P := Encoding.Ends) (fun _ => encoding_destroy) hx hi h
  refine ⟨x.items.length, m', ?_, ?_⟩
  · unfold openAndClose
    rw [e, Res.bind_ok]
    simp only
    rw [e']
    rfl
  · apply List.eq_nil_iff_forall_not_mem.mpr
    intro a ha
    have := List.count_pos_iff.mpr ha
    rw [h' a] at this
    exact absurd this (Nat.lt_irrefl 0)

theorem harmless_of_notBoth {can : Nat → Bool} {es : List EncsPart} (h : NotBoth es) (ps : List EncPart) (hp : EncsPart.encoding ps ∈ es) :
    Harmless can ps := by
  right
  apply Classical.byContradiction
  intro hc
  have h1 : 0 < ps.countP EncPart.isComp := Nat.pos_of_ne_zero fun e => hc (Or.inl e)
  have h2 : 0 < ps.countP EncPart.isEncr := Nat.pos_of_ne_zero fun e => hc (Or.inr e)
  obtain ⟨p, hp1, hp2⟩ := List.countP_pos_iff.mp h1
  obtain ⟨q, hq1, hq2⟩ := List.countP_pos_iff.mp h2
  cases p with
  | compression cs =>
    cases q with
    | encryption ds => exact h ps hp cs ds ⟨hp1, hq1⟩
    | _ => cases hq2
  | _ => cases hp2

end Verif.Par.Enc

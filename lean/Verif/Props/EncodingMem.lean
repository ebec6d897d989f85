/-
C91: the memory of the content encodings of a track.
-/
import Verif.Lemmas.ParserEncodingMem

namespace Verif.Props
open Verif Verif.Spec Verif.Par.Enc Verif.Mux.Build

/-- Whatever the file has for the content encodings of a track, whatever cannot be read and whichever allocations fail: parsing them and
destroying the track uses no null or deleted pointer, writes only into the arrays, and leaves nothing allocated.  Partial: no encoding is
both a compression and an encryption. -/
theorem C91_freed_partial (can : Nat → Bool) (es : List EncsPart) (hes : NotBoth es) :
    ∃ n m, openAndClose can es = .ok (n, m) ∧ m.live = [] :=
  openAndClose_spec (harmless_of_notBoth hes)

/-- A file with a compression, and an encryption that has two key ids and a signature that cannot be read. -/
private def sample : List EncsPart :=
  [.other, .encoding [.scope true, .compression [.algo true, .settings 4 true]],
    .encoding [.encryption [.algo true, .keyId 8 true, .keyId 16 true, .signature 8 false]]]

example : NotBoth sample := by
  intro ps hp cs ds h
  simp only [sample, List.mem_cons, EncsPart.encoding.injEq, List.not_mem_nil, or_false, reduceCtorEq, false_or] at hp
  rcases hp with rfl | rfl <;> simp at h

/-- Both are kept if there is memory; without memory for the object of the second, only the first is. -/
example : (∃ m, openAndClose (fun _ => true) sample = .ok (2, m) ∧ m.live = []) ∧
    ∃ m, openAndClose (fun n => n != 5) sample = .ok (1, m) ∧ m.live = [] :=
  ⟨⟨_, rfl, rfl⟩, ⟨_, rfl, rfl⟩⟩

/-- It is so for any encodings if memory is never short. -/
theorem C91_enough (can : Nat → Bool) (es : List EncsPart) (hc : Enough can) : ∃ n m, openAndClose can es = .ok (n, m) ∧ m.live = [] :=
  openAndClose_spec fun _ _ => Or.inl hc

/-- An encoding that is both, and is refused for its second compression, which has no algorithm. -/
example : ∃ m, openAndClose (fun _ => true) [.encoding [.compression [.algo true, .settings 4 true], .encryption [.keyId 8 true],
    .compression [.settings 4 true]]] = .ok (0, m) ∧ m.live = [] ∧ m.next = 10 := ⟨_, rfl, rfl, rfl⟩

/-- But not otherwise: for any file whose first encoding has both a compression and an encryption, if the array for the second cannot be
allocated, the destructor reads through a null pointer. -/
theorem C91_null_used (can : Nat → Bool) (ps : List EncPart) (es : List EncsPart) (cs : List CompPart) (ds : List EncrPart)
    (hp : ∀ p ∈ ps, p ≠ .bad) (hb : ∀ p ∈ es, p ≠ .bad) (h1 : .compression cs ∈ ps) (h2 : .encryption ds ∈ ps)
    (h : can 0 = true ∧ can 1 = true ∧ can 2 = true ∧ can 3 = false) : openAndClose can (.encoding ps :: es) = .ub := by
  have hc : 0 < ps.countP EncPart.isComp := List.countP_pos_iff.mpr ⟨_, h1, rfl⟩
  have hd : 0 < ps.countP EncPart.isEncr := List.countP_pos_iff.mpr ⟨_, h2, rfl⟩
  have nb : ps.any EncPart.isBad = false := by
    rw [List.any_eq_false]
    intro p hm
    cases p with
    | bad => exact absurd rfl (hp _ hm)
    | _ => simp [EncPart.isBad]
  have nbs : (EncsPart.encoding ps :: es).any EncsPart.isBad = false := by
    rw [List.any_eq_false]
    intro p hm
    rcases List.mem_cons.mp hm with hm | hm
    · rw [hm]
      simp [EncsPart.isBad]
    · cases p with
      | bad => exact absurd rfl (hb _ hm)
      | _ => simp [EncsPart.isBad]
  have he : (EncsPart.encoding ps :: es).countP EncsPart.isEncoding ≠ 0 := by
    rw [List.countP_cons_of_pos (by rfl)]
    omega
  have e : parseEncoding can ps { live := [1, 0], next := 2 } = .ok (false, { comps := { ended := true, room := ps.countP EncPart.isComp } },
      { live := [1, 0], next := 4 }) := by
    unfold parseEncoding
    rw [nb, if_neg (by decide), if_neg (by omega)]
    unfold newPtrs
    rw [if_neg (by omega)]
    simp only [Mem.alloc, h.2.2.1, h.2.2.2, if_true, Bool.false_eq_true, if_false]
    rw [if_neg (by omega)]
    rfl
  unfold openAndClose parseEncodings
  rw [nbs, if_neg (by decide), if_neg he]
  unfold newPtrs
  rw [if_neg he]
  simp only [Mem.alloc, h.1, if_true]
  unfold parseEach
  simp only [Mem.alloc, h.2.1, if_true]
  rw [e]
  rfl

example : openAndClose (fun n => n != 3) [.encoding [.encryption [.keyId 8 true], .compression [.algo true]]] = .ub :=
  C91_null_used _ _ [] [.algo true] [.keyId 8 true] (by simp) (by simp) (by simp) (by simp) (by decide)

/-- A compression whose settings cannot be read is kept, though a compression must have an algorithm and this one may have none. -/
theorem C91_unread_kept (can : Nat → Bool) (hc : Enough can) (size : Nat) (hs : size ≠ 0) (rest : List CompPart) :
    ∃ m, openAndClose can [.encoding [.compression (.settings size false :: rest)]] = .ok (1, m) := by
  have h : can = fun _ => true := funext hc
  subst h
  have e : ∀ m : Mem, m = { live := [3, 2, 1, 0], next := 4 } → parseComp (fun _ => true) (.settings size false :: rest) false none m =
      .ok (true, none, { live := [3, 2, 1, 0], next := 5 }) := by
    rintro m rfl
    unfold parseComp
    rw [if_neg hs]
    rfl
  refine ⟨{ live := [], next := 5 }, ?_⟩
  unfold openAndClose parseEncodings
  rw [if_neg (by simp [EncsPart.isBad]), if_neg (by simp [EncsPart.isEncoding])]
  unfold parseEach
  show (parseEncoding (fun _ => true) _ _ >>= _) >>= _ = _
  unfold parseEncoding
  rw [if_neg (by simp [EncPart.isBad]), if_neg (by simp [EncPart.isComp])]
  unfold parseParts
  show ((parseComp (fun _ => true) (.settings size false :: rest) false none _ >>= _) >>= _) >>= _ = _
  rw [e _ rfl]
  rfl

/-- Without settings it is refused, as is one with settings that can be read. -/
example : (∃ m, openAndClose (fun _ => true) [.encoding [.compression []]] = .ok (0, m)) ∧
    ∃ m, openAndClose (fun _ => true) [.encoding [.compression [.settings 4 true]]] = .ok (0, m) := ⟨⟨_, rfl⟩, ⟨_, rfl⟩⟩

end Verif.Props

/-
Lemmas about the VP9 header parser.
-/
import Verif.Model.Vp9Header
import Verif.Spec.Vp9

namespace Verif.Vp9
open Verif Spec.Vp9

namespace BitM
theorem bind_def {α β} (m : BitM α) (f : α → BitM β) (s : Bits) :
    (m >>= f) s = match m s with
      | .ok (a, s') => f a s'
      | .err c => .err c
      | .ub => .ub := rfl

theorem pure_def {α} (a : α) (s : Bits) : (pure a : BitM α) s = .ok (a, s) := rfl
end BitM

/-! ### Padding with zeros -/

/-- Reading a frame, and the same frame followed by `k` zero bytes. -/
structure Rel (F : Bytes) (k : Nat) (s s' : Bits) : Prop where
  frame : s.frame = F
  frame' : s'.frame = F ++ List.replicate k 0
  bound : s.off ≤ 8 * F.length
  off : s'.off = s.off ∨ (s.off = 8 * F.length ∧ 8 * F.length ≤ s'.off)

/-- Related states stay related and give the same value, which satisfies `P`; no undefined
behaviour. -/
def Sim {α} (F : Bytes) (k : Nat) (m : BitM α) (P : α → Prop) : Prop :=
  ∀ s s', Rel F k s s' →
    ∃ a t t', m s = .ok (a, t) ∧ m s' = .ok (a, t') ∧ Rel F k t t' ∧ P a

variable {F : Bytes} {k : Nat}

theorem Sim.pure {α} {a : α} {P : α → Prop} (h : P a) : Sim F k (pure a) P :=
  fun s s' r => ⟨a, s, s', rfl, rfl, r, h⟩

theorem Sim.bind {α β} {m : BitM α} {f : α → BitM β} {P : α → Prop} {Q : β → Prop}
    (h : Sim F k m P) (hf : ∀ a, P a → Sim F k (f a) Q) : Sim F k (m >>= f) Q := by
  intro s s' r
  obtain ⟨a, t, t', e, e', r', p⟩ := h s s' r
  obtain ⟨b, u, u', g, g', r'', q⟩ := hf a p t t' r'
  refine ⟨b, u, u', ?_, ?_, r'', q⟩
  · rw [BitM.bind_def, e]; exact g
  · rw [BitM.bind_def, e']; exact g'

theorem Sim.mono {α} {m : BitM α} {P Q : α → Prop} (h : Sim F k m P) (hpq : ∀ a, P a → Q a) :
    Sim F k m Q := by
  intro s s' r
  obtain ⟨a, t, t', e, e', r', p⟩ := h s s' r
  exact ⟨a, t, t', e, e', r', hpq a p⟩

theorem Sim.ite {α} {c : Prop} [Decidable c] {m n : BitM α} {P : α → Prop}
    (h1 : c → Sim F k m P) (h2 : ¬ c → Sim F k n P) : Sim F k (if c then m else n) P := by
  by_cases h : c
  · rw [if_pos h]; exact h1 h
  · rw [if_neg h]; exact h2 h

theorem sim_readBit : Sim F k readBit (· ≤ 1) := by
  intro s s' r
  obtain ⟨f, off⟩ := s
  obtain ⟨f', off'⟩ := s'
  obtain ⟨rfl, rfl, hb, ho⟩ := r
  simp only at *
  have h3 : ∀ n : Nat, n >>> 3 = n / 8 := fun n => Nat.shiftRight_eq_div_pow n 3
  have hle : ∀ n : Nat, n &&& 1 ≤ 1 := fun n => by rw [Nat.and_one_is_mod]; omega
  unfold readBit
  simp only [h3, List.length_append, List.length_replicate]
  by_cases h1 : off / 8 < f.length
  · have ho' : off' = off := by omega
    subst ho'
    rw [if_pos h1, if_pos (by omega), List.getElem?_append_left h1, List.getElem?_eq_getElem h1]
    refine ⟨_, _, _, rfl, rfl, ⟨rfl, rfl, ?_, Or.inl rfl⟩, hle _⟩
    simp only; omega
  · rw [if_neg h1]
    have hge : off = 8 * f.length := by omega
    by_cases h2 : off' / 8 < f.length + k
    · rw [if_pos h2, List.getElem?_append_right (by omega), List.getElem?_replicate,
        if_pos (by omega)]
      refine ⟨0, _, ⟨_, off' + 1⟩, rfl, ?_, ⟨rfl, rfl, hb, Or.inr ⟨hge, ?_⟩⟩, by omega⟩
      · simp
      · simp only; omega
    · rw [if_neg h2]
      exact ⟨0, _, _, rfl, rfl, ⟨rfl, rfl, hb, by omega⟩, by omega⟩

theorem or_shl_lt (v b n : Nat) (w : Nat) (hv : v < 2 ^ w) (hb : b ≤ 1) (hn : n < w) :
    v ||| b <<< n < 2 ^ w := by
  apply Nat.or_lt_two_pow hv
  rw [Nat.shiftLeft_eq]
  calc b * 2 ^ n ≤ 1 * 2 ^ n := Nat.mul_le_mul_right _ hb
    _ = 2 ^ n := Nat.one_mul _
    _ < 2 ^ w := Nat.pow_lt_pow_right (by omega) hn

theorem sim_readLiteralLoop (n v w : Nat) (hn : n ≤ w) (hv : v < 2 ^ w) :
    Sim F k (readLiteralLoop n v) (· < 2 ^ w) := by
  induction n generalizing v with
  | zero => exact Sim.pure hv
  | succ n ih =>
    exact sim_readBit.bind fun b hb => ih _ (by omega) (or_shl_lt v b n w hv hb (by omega))

theorem sim_readLiteral (n : Nat) : Sim F k (readLiteral n) (· < 2 ^ n) :=
  sim_readLiteralLoop n 0 n (Nat.le_refl n) (Nat.two_pow_pos n)

theorem sim_syncCode : Sim F k syncCode fun _ => True := by
  unfold syncCode
  exact (sim_readLiteral 8).bind fun _ _ => (sim_readLiteral 8).bind fun _ _ =>
    (sim_readLiteral 8).bind fun _ _ => Sim.pure trivial

theorem sim_colorSpace (h : Hdr) : Sim F k (colorSpace h) fun _ => True := by
  unfold colorSpace
  refine Sim.bind (P := fun _ => True) ?_ fun _ _ => (sim_readLiteral 3).bind fun _ _ => ?_
  · exact Sim.ite (fun _ => sim_readBit.bind fun _ _ => Sim.pure trivial) fun _ => Sim.pure trivial
  · refine Sim.ite (fun _ => ?_) fun _ => ?_
    · refine sim_readBit.bind fun _ _ => ?_
      exact Sim.ite (fun _ => sim_readBit.bind fun _ _ => sim_readBit.bind fun _ _ =>
        sim_readBit.bind fun _ _ => Sim.pure trivial) fun _ => Sim.pure trivial
    · exact Sim.ite (fun _ => sim_readBit.bind fun _ _ => Sim.pure trivial) fun _ =>
        Sim.pure trivial

theorem sim_frameResolution (h : Hdr) :
    Sim F k (frameResolution h) fun h' => 1 ≤ h'.width ∧ h'.width ≤ 65536 := by
  unfold frameResolution
  refine (sim_readLiteral 16).bind fun w hw => (sim_readLiteral 16).bind fun _ _ =>
    sim_readBit.bind fun _ _ => ?_
  have hw' : w < 65536 := hw
  refine Sim.ite (fun _ => ?_) fun _ => ?_
  · exact (sim_readLiteral 16).bind fun _ _ => (sim_readLiteral 16).bind fun _ _ =>
      Sim.pure (by simp only; omega)
  · exact Sim.pure (by simp only; omega)

theorem sim_frameParallelMode (h : Hdr) (P : Hdr → Prop)
    (hP : ∀ b, P { h with frameParallel := b }) : Sim F k (frameParallelMode h) P := by
  unfold frameParallelMode
  exact Sim.ite (fun _ => sim_readBit.bind fun _ _ => sim_readBit.bind fun _ _ =>
    Sim.pure (hP _)) fun _ => Sim.pure (hP _)

theorem sim_skipDeltas (n : Nat) : Sim F k (skipDeltas n) fun _ => True := by
  induction n with
  | zero => exact Sim.pure trivial
  | succ n ih =>
    exact sim_readBit.bind fun _ _ => (Sim.ite (P := fun _ => True)
      (fun _ => (sim_readLiteral 7).bind fun _ _ => Sim.pure trivial)
      fun _ => Sim.pure trivial).bind fun _ _ => ih

theorem sim_skipDeltaQ : Sim F k skipDeltaQ fun _ => True :=
  sim_readBit.bind fun _ _ => Sim.ite
    (fun _ => (sim_readLiteral 4).bind fun _ _ => Sim.pure trivial) fun _ => Sim.pure trivial

theorem sim_tileColsLoop (n c : Nat) : Sim F k (tileColsLoop n c) fun _ => True := by
  induction n generalizing c with
  | zero => exact Sim.pure trivial
  | succ n ih => exact sim_readBit.bind fun _ _ => Sim.ite (fun _ => ih _) fun _ => Sim.pure trivial

/-- `sb_cols` as the code computes it. -/
theorem sbCols_eq (w : Nat) : align8 (align8 w >>> 3) >>> 3 = sbCols w := by
  have h3 : ∀ n : Nat, n >>> 3 = n / 8 := fun n => Nat.shiftRight_eq_div_pow n 3
  have h3' : ∀ n : Nat, n <<< 3 = n * 8 := fun n => Nat.shiftLeft_eq n 3
  unfold align8 sbCols
  simp only [h3, h3']
  omega

/-- The two loops on every width the header can express. -/
theorem loops_table : ∀ sb : Fin 1025, ∃ hi lo, maxLog2Loop sb 32 0 = some hi ∧
    minLog2Loop sb 25 0 = some lo ∧ lo ≤ hi - 1 := by
  have : ∀ sb : Fin 1025, (match maxLog2Loop sb 32 0, minLog2Loop sb 25 0 with
      | some hi, some lo => decide (lo ≤ hi - 1)
      | _, _ => false) = true := by decide +kernel
  intro sb
  have h := this sb
  rcases h1 : maxLog2Loop sb 32 0 with _ | hi <;> rcases h2 : minLog2Loop sb 25 0 with _ | lo <;>
    rw [h1, h2] at h <;> simp at h
  exact ⟨hi, lo, rfl, rfl, h⟩

theorem sim_tileInfo (h : Hdr) (hw : h.width ≤ 65536) : Sim F k (tileInfo h) fun _ => True := by
  unfold tileInfo
  refine (sim_readLiteral 2).bind fun _ _ => (sim_readLiteral 6).bind fun _ _ =>
    (sim_readLiteral 3).bind fun _ _ => sim_readBit.bind fun _ _ =>
    Sim.bind (P := fun _ => True) (Sim.ite (fun _ => sim_readBit.bind fun _ _ =>
      Sim.ite (fun _ => (sim_skipDeltas 4).bind fun _ _ => sim_skipDeltas 2) fun _ => Sim.pure trivial)
      fun _ => Sim.pure trivial) fun _ _ => (sim_readLiteral 8).bind fun _ _ =>
    sim_skipDeltaQ.bind fun _ _ => sim_skipDeltaQ.bind fun _ _ => sim_skipDeltaQ.bind fun _ _ =>
    sim_readBit.bind fun _ _ => Sim.ite (fun _ => ?_) fun _ => Sim.pure trivial
  simp only [sbCols_eq]
  have hsb : sbCols h.width < 1025 := by unfold sbCols; omega
  obtain ⟨hi, lo, e1, e2, hle⟩ := loops_table ⟨_, hsb⟩
  simp only at e1 e2
  rw [e1, e2]
  simp only
  refine Sim.ite (fun hc => absurd hc (by omega)) fun _ => ?_
  exact (sim_tileColsLoop _ _).bind fun _ _ => sim_readBit.bind fun _ _ =>
    Sim.bind (P := fun _ => True) (Sim.ite (fun _ => sim_readBit.bind fun _ _ => Sim.pure trivial)
      fun _ => Sim.pure trivial) fun _ _ => Sim.pure trivial

theorem sim_keyFrame (h : Hdr) : Sim F k (keyFrame h) fun _ => True := by
  unfold keyFrame
  refine sim_syncCode.bind fun _ _ => Sim.ite (fun _ => ?_) fun _ => Sim.pure trivial
  exact (sim_colorSpace h).bind fun _ _ => (sim_frameResolution _).bind fun h2 hw =>
    (sim_frameParallelMode h2 (fun h => h.width ≤ 65536) fun _ => hw.2).bind fun h3 hw3 =>
    (sim_tileInfo h3 hw3).bind fun _ _ => Sim.pure trivial

theorem sim_skipRefs (n : Nat) : Sim F k (skipRefs n) fun _ => True := by
  induction n with
  | zero => exact Sim.pure trivial
  | succ n ih => exact (sim_readLiteral 3).bind fun _ _ => sim_readBit.bind fun _ _ => ih

theorem sim_findRef (n : Nat) : Sim F k (findRef n) fun _ => True := by
  induction n with
  | zero => exact Sim.pure trivial
  | succ n ih => exact sim_readBit.bind fun _ _ => Sim.ite (fun _ => Sim.pure trivial) fun _ => ih

theorem sim_nonKeyFrame (h : Hdr) : Sim F k (nonKeyFrame h) fun _ => True := by
  unfold nonKeyFrame
  refine Sim.bind (P := fun _ => True)
    (Sim.ite (fun _ => sim_readBit.mono fun _ _ => trivial) fun _ => Sim.pure trivial) fun _ _ =>
    Sim.bind (P := fun _ => True)
    (Sim.ite (fun _ => Sim.pure trivial) fun _ => (sim_readLiteral 2).mono fun _ _ => trivial) fun _ _ =>
    Sim.ite (fun _ => ?_) fun _ => ?_
  · refine sim_syncCode.bind fun _ _ => Sim.ite (fun _ => ?_) fun _ => Sim.pure trivial
    exact Sim.bind (P := fun _ => True)
      (Sim.ite (fun _ => sim_colorSpace _) fun _ => Sim.pure trivial) fun _ _ =>
      (sim_readLiteral 8).bind fun _ _ => (sim_frameResolution _).bind fun _ _ => Sim.pure trivial
  · exact (sim_readLiteral 8).bind fun _ _ => (sim_skipRefs 3).bind fun _ _ =>
      (sim_findRef 3).bind fun _ _ => Sim.ite (fun _ => Sim.pure trivial) fun _ =>
      (sim_frameResolution _).bind fun _ _ => Sim.pure trivial

theorem sim_uncompressedHeader (h : Hdr) : Sim F k (uncompressedHeader h) fun _ => True := by
  unfold uncompressedHeader
  refine (sim_readLiteral 2).bind fun _ _ => Sim.ite (fun _ => Sim.pure trivial) fun _ =>
    sim_readBit.bind fun _ _ => sim_readBit.bind fun _ _ =>
    Sim.bind (P := fun _ => True)
      (Sim.ite (fun _ => sim_readBit.bind fun _ _ => Sim.pure trivial) fun _ => Sim.pure trivial)
      fun _ _ => sim_readBit.bind fun _ _ => Sim.ite (fun _ => Sim.pure trivial) fun _ =>
    sim_readBit.bind fun _ _ => sim_readBit.bind fun _ _ => sim_readBit.bind fun _ _ =>
    Sim.ite (fun _ => sim_keyFrame _) fun _ => sim_nonKeyFrame _

/-! ### Reading encoded fields -/

/-- The bits still to be read. -/
def Bits.rest (s : Bits) : List Bool := (bitsOf s.frame).drop s.off

/-- `m` reads exactly the bits `e`, whatever follows, and gives `a`. -/
def Reads {α} (m : BitM α) (e : List Bool) (a : α) : Prop :=
  ∀ (s : Bits) (r : List Bool), s.rest = e ++ r → m s = .ok (a, { s with off := s.off + e.length })

theorem Reads.pure {α} (a : α) : Reads (pure a : BitM α) [] a := fun _ _ _ => rfl

theorem Reads.bind {α β} {m : BitM α} {f : α → BitM β} {e e' : List Bool} {a : α} {b : β}
    (h : Reads m e a) (hf : Reads (f a) e' b) : Reads (m >>= f) (e ++ e') b := by
  intro s r hs
  rw [BitM.bind_def, h s (e' ++ r) (by rw [hs, List.append_assoc])]
  simp only
  rw [hf _ r]
  · rw [List.length_append, Nat.add_assoc]
  · unfold Bits.rest at *
    simp only
    rw [← List.drop_drop, hs, List.append_assoc, List.drop_left]

theorem Reads.congr {α} {m : BitM α} {e e' : List Bool} {a : α} (h : Reads m e a) (he : e = e') :
    Reads m e' a := he ▸ h

theorem Reads.of_pos {α} {c : Prop} [Decidable c] {m n : BitM α} {e : List Bool} {a : α} (hc : c)
    (h : Reads m e a) : Reads (if c then m else n) e a := by rw [if_pos hc]; exact h

theorem Reads.of_neg {α} {c : Prop} [Decidable c] {m n : BitM α} {e : List Bool} {a : α} (hc : ¬ c)
    (h : Reads n e a) : Reads (if c then m else n) e a := by rw [if_neg hc]; exact h

theorem bitsOfNat_length (n v : Nat) : (bitsOfNat n v).length = n := by
  induction n with
  | zero => rfl
  | succ n ih => rw [bitsOfNat, List.length_cons, ih]

theorem bitsOf_length (bs : Bytes) : (bitsOf bs).length = 8 * bs.length := by
  induction bs with
  | nil => rfl
  | cons b bs ih =>
    unfold bitsOf at *
    rw [List.flatMap_cons, List.length_append, ih, bitsOfNat_length, List.length_cons]; omega

theorem bitsOf_get (bs : Bytes) (i : Nat) :
    (bitsOf bs)[i]? = (bs[i / 8]?).map fun b => decide (b.toNat / 2 ^ (7 - i % 8) % 2 = 1) := by
  induction bs generalizing i with
  | nil => simp [bitsOf]
  | cons b bs ih =>
    have hc : bitsOf (b :: bs) = bitsOfNat 8 b.toNat ++ bitsOf bs := by
      unfold bitsOf; rw [List.flatMap_cons]
    rw [hc]
    by_cases h : i < 8
    · rw [List.getElem?_append_left (by rw [bitsOfNat_length]; exact h),
        show i / 8 = 0 by omega, Nat.mod_eq_of_lt h]
      have : i = 0 ∨ i = 1 ∨ i = 2 ∨ i = 3 ∨ i = 4 ∨ i = 5 ∨ i = 6 ∨ i = 7 := by omega
      rcases this with rfl | rfl | rfl | rfl | rfl | rfl | rfl | rfl <;> rfl
    · rw [List.getElem?_append_right (by rw [bitsOfNat_length]; omega), bitsOfNat_length, ih,
        show i / 8 = (i - 8) / 8 + 1 by omega, List.getElem?_cons_succ,
        show i % 8 = (i - 8) % 8 by omega]

theorem reads_bit (b : Bool) : Reads readBit [b] (if b then 1 else 0) := by
  intro s r hs
  have hget : (bitsOf s.frame)[s.off]? = some b := by
    have : s.rest[0]? = some b := by rw [hs]; rfl
    unfold Bits.rest at this
    rw [List.getElem?_drop] at this
    exact this
  rw [bitsOf_get] at hget
  obtain ⟨x, hx, hb⟩ := Option.map_eq_some_iff.mp hget
  have hlt : s.off / 8 < s.frame.length := (List.getElem?_eq_some_iff.mp hx).1
  unfold readBit
  have h3 : s.off >>> 3 = s.off / 8 := Nat.shiftRight_eq_div_pow _ 3
  have h7 : s.off &&& 7 = s.off % 8 := Nat.and_two_pow_sub_one_eq_mod s.off 3
  simp only [h3, h7, if_pos hlt, hx, List.length_cons, List.length_nil, Nat.zero_add]
  rw [Nat.and_one_is_mod, Nat.shiftRight_eq_div_pow]
  congr 2
  subst hb
  by_cases h : x.toNat / 2 ^ (7 - s.off % 8) % 2 = 1
  · simp [h]
  · rw [if_neg (by simpa using h)]; omega

theorem or_bit (v n b : Nat) (hb : b ≤ 1) :
    v * 2 ^ (n + 1) ||| b <<< n = (2 * v + b) * 2 ^ n := by
  have e : v * 2 ^ (n + 1) = (2 * v) <<< n := by
    rw [Nat.shiftLeft_eq, Nat.pow_succ]
    rw [Nat.mul_comm 2 v, Nat.mul_assoc, Nat.mul_comm 2]
  rw [e, ← Nat.shiftLeft_or_distrib, Nat.shiftLeft_eq]
  congr 1
  have := Nat.shiftLeft_add_eq_or_of_lt (b := b) (i := 1) (by omega : b < 2 ^ 1) v
  rw [Nat.shiftLeft_eq, Nat.pow_one, Nat.mul_comm v 2] at this
  exact this.symm

theorem reads_literalLoop (n v w : Nat) :
    Reads (readLiteralLoop n (v * 2 ^ n)) (bitsOfNat n w) (v * 2 ^ n + w % 2 ^ n) := by
  induction n generalizing v with
  | zero =>
    rw [show v * 2 ^ 0 + w % 2 ^ 0 = v * 2 ^ 0 by omega]
    exact Reads.pure _
  | succ n ih =>
    rw [readLiteralLoop, bitsOfNat, ← List.singleton_append]
    refine (reads_bit _).bind ?_
    have hb : (if decide (w / 2 ^ n % 2 = 1) = true then 1 else 0) = w / 2 ^ n % 2 := by
      by_cases h : w / 2 ^ n % 2 = 1
      · simp [h]
      · rw [if_neg (by simpa using h)]; omega
    rw [hb, or_bit _ _ _ (by omega)]
    have e : v * 2 ^ (n + 1) + w % 2 ^ (n + 1) = (2 * v + w / 2 ^ n % 2) * 2 ^ n + w % 2 ^ n := by
      rw [Nat.mod_pow_succ, Nat.add_mul, Nat.pow_succ, Nat.mul_comm (2 ^ n) (w / 2 ^ n % 2),
        Nat.mul_comm 2 v, Nat.mul_assoc, Nat.mul_comm 2 (2 ^ n)]
      omega
    rw [e]
    exact ih _

theorem reads_literal (n w : Nat) (h : w < 2 ^ n) : Reads (readLiteral n) (bitsOfNat n w) w := by
  have := reads_literalLoop n 0 w
  rw [Nat.zero_mul, Nat.zero_add, Nat.mod_eq_of_lt h] at this
  exact this

/-- Fields that are skipped need not be in range. -/
theorem reads_literal' (n w : Nat) : ∃ v, Reads (readLiteral n) (bitsOfNat n w) v :=
  ⟨_, reads_literalLoop n 0 w |> fun h => by rw [Nat.zero_mul] at h; exact h⟩

theorem reads_optBits (n : Nat) (o : Option Nat) :
    Reads (do
      let b ← readBit
      if b ≠ 0 then do
        let _ ← readLiteral n
        pure ()
      else pure ()) (optBits n o) () := by
  cases o with
  | none => exact (reads_bit false).bind (e' := []) (Reads.of_neg (by simp) (Reads.pure ()))
  | some v =>
    obtain ⟨w, hw⟩ := reads_literal' n v
    refine (reads_bit true).bind (Reads.of_pos (by simp) ?_)
    exact (hw.bind (f := fun _ => pure ()) (Reads.pure ())).congr (by simp)

theorem reads_skipDeltaQ (o : Option Nat) : Reads skipDeltaQ (optBits 4 o) () := reads_optBits 4 o

theorem reads_skipDeltas (l : List (Option Nat)) :
    Reads (skipDeltas l.length) (l.flatMap (optBits 7)) () := by
  induction l with
  | nil => exact Reads.pure ()
  | cons o l ih =>
    rw [List.length_cons, skipDeltas, List.flatMap_cons]
    cases o with
    | none =>
      exact (reads_bit false).bind (Reads.bind (e := []) (a := ())
        (Reads.of_neg (by simp) (Reads.pure ())) ih)
    | some v =>
      obtain ⟨w, hw⟩ := reads_literal' 7 v
      refine ((reads_bit true).bind (Reads.bind (e := bitsOfNat 7 v) (a := ())
        (Reads.of_pos (by simp) ?_) ih)).congr ?_
      · exact (hw.bind (f := fun _ => pure ()) (Reads.pure ())).congr (by simp)
      · simp [optBits]

theorem reads_sync : Reads syncCode syncBits true := by
  unfold syncCode syncBits
  refine ((reads_literal 8 0x49 (by decide)).bind ((reads_literal 8 0x83 (by decide)).bind
    ((reads_literal 8 0x42 (by decide)).bind (e' := []) (b := true) ?_))).congr (by simp)
  exact Reads.pure true

/-- The results of the colour configuration. -/
def withColor (h : Hdr) (profile : Nat) (c : Color) : Hdr :=
  { h with
    bitDepth := c.depth profile
    colorSpace := c.space
    colorRange := if c.space ≠ 7 then (if c.range then 1 else 0) else 1
    subsamplingX := if c.space ≠ 7 then
        (if profile % 2 = 1 then (if c.subX then 1 else 0) else 1)
      else if profile % 2 = 1 then 0 else h.subsamplingX
    subsamplingY := if c.space ≠ 7 then
        (if profile % 2 = 1 then (if c.subY then 1 else 0) else 1)
      else if profile % 2 = 1 then 0 else h.subsamplingY }

theorem reads_color (h : Hdr) (profile : Nat) (c : Color) (hp : h.profile = profile)
    (hp3 : profile ≤ 3) (hc : c.space < 8) :
    Reads (colorSpace h) (c.bits profile) (withColor h profile c) := by
  unfold colorSpace Color.bits
  rw [List.append_assoc]
  refine Reads.bind (a := c.depth profile) ?_ ((reads_literal 3 c.space hc).bind ?_)
  · unfold Color.depth
    by_cases h2 : profile ≥ 2
    · rw [if_pos h2, if_pos h2]
      refine Reads.of_pos (by omega) ?_
      refine ((reads_bit c.twelve).bind (e' := []) (b := if c.twelve then 12 else 10) ?_).congr (by simp)
      cases c.twelve <;> exact Reads.pure _
    · rw [if_neg h2, if_neg h2]
      exact Reads.of_neg (by omega) (Reads.pure _)
  · by_cases h7 : c.space ≠ 7
    · rw [if_pos h7, if_pos h7]
      refine (reads_bit c.range).bind ?_
      by_cases h1 : profile % 2 = 1
      · rw [if_pos h1]
        refine Reads.of_pos (by simp only; omega) ?_
        refine ((reads_bit c.subX).bind ((reads_bit c.subY).bind ((reads_bit false).bind (e' := [])
          (b := withColor h profile c) ?_))).congr (by simp)
        unfold withColor
        simp only [if_pos h7, if_pos h1]
        exact Reads.pure _
      · rw [if_neg h1]
        refine Reads.of_neg (by simp only; omega) ?_
        unfold withColor
        simp only [if_pos h7, if_neg h1]
        exact Reads.pure _
    · rw [if_neg h7, if_neg h7]
      by_cases h1 : profile % 2 = 1
      · rw [if_pos h1]
        refine Reads.of_pos (by show h.profile = 1 ∨ h.profile = 3; omega) ?_
        refine ((reads_bit false).bind (e' := []) (b := withColor h profile c) ?_).congr (by simp)
        unfold withColor
        simp only [if_neg h7, if_pos h1]
        exact Reads.pure _
      · rw [if_neg h1]
        refine Reads.of_neg (by show ¬ (h.profile = 1 ∨ h.profile = 3); omega) ?_
        unfold withColor
        simp only [if_neg h7, if_neg h1]
        exact Reads.pure _

/-- The results of the frame size. -/
def withSize (h : Hdr) (z : Size) : Hdr :=
  { h with width := z.width, height := z.height,
           displayWidth := (z.render.getD (z.width, z.height)).1,
           displayHeight := (z.render.getD (z.width, z.height)).2 }

theorem reads_size (h : Hdr) (z : Size) (hz : z.Valid) :
    Reads (frameResolution h) z.bits (withSize h z) := by
  obtain ⟨w, ht, r⟩ := z
  obtain ⟨h1, h2, h3, h4, h5⟩ := hz
  simp only at *
  have lt16 : ∀ v, 1 ≤ v → v ≤ 65536 → v - 1 < 2 ^ 16 := by
    intro v a b
    rw [show (2 : Nat) ^ 16 = 65536 from rfl]; omega
  unfold frameResolution Size.bits withSize
  simp only
  rw [List.append_assoc]
  refine (reads_literal 16 _ (lt16 w h1 h2)).bind ((reads_literal 16 _ (lt16 ht h3 h4)).bind ?_)
  rw [Nat.sub_add_cancel h1, Nat.sub_add_cancel h3]
  cases r with
  | none => exact (reads_bit false).bind (e' := []) (Reads.of_neg (by simp) (Reads.pure _))
  | some r =>
    obtain ⟨a, b⟩ := r
    obtain ⟨g1, g2, g3, g4⟩ := h5 _ rfl
    simp only at g1 g2 g3 g4 ⊢
    rw [List.append_assoc]
    refine (reads_bit true).bind (Reads.of_pos (by simp) ?_)
    refine ((reads_literal 16 _ (lt16 a g1 g2)).bind ((reads_literal 16 _ (lt16 b g3 g4)).bind
      (e' := []) ?_)).congr (by simp)
    rw [Nat.sub_add_cancel g1, Nat.sub_add_cancel g3]
    exact Reads.pure _

theorem reads_parallel (h : Hdr) (resilient refresh parallel : Bool)
    (hr : h.errorResilient = if resilient then 1 else 0) :
    Reads (frameParallelMode h) (if resilient then [] else [refresh, parallel])
      { h with frameParallel := if resilient then 1 else if parallel then 1 else 0 } := by
  unfold frameParallelMode
  cases resilient
  · refine Reads.of_pos (by rw [hr]; rfl) ?_
    refine ((reads_bit refresh).bind ((reads_bit parallel).bind (e' := []) ?_)).congr rfl
    exact Reads.pure _
  · exact Reads.of_neg (by rw [hr]; simp) (Reads.pure _)

/-! ### Tile columns -/

theorem minLoop_some (sb fuel k lo : Nat) (h : minLog2Loop sb fuel k = some lo)
    (hk : ∀ j, j < k → 64 * 2 ^ j < sb) : MinLog2 sb lo := by
  induction fuel generalizing k with
  | zero => cases h
  | succ fuel ih =>
    rw [minLog2Loop, Nat.shiftLeft_eq] at h
    by_cases hc : 64 * 2 ^ k < sb
    · rw [if_pos hc] at h
      refine ih _ h fun j hj => ?_
      rcases Nat.lt_succ_iff_lt_or_eq.mp hj with hj | rfl
      · exact hk j hj
      · exact hc
    · rw [if_neg hc] at h
      cases h
      exact ⟨by omega, hk⟩

theorem maxLoop_some (sb fuel k hi : Nat) (h : maxLog2Loop sb fuel k = some hi)
    (hk : k = 0 ∨ 4 * 2 ^ (k - 1) ≤ sb) : (∀ j, hi ≤ j → sb < 4 * 2 ^ j) ∧
      (hi = 0 ∨ 4 * 2 ^ (hi - 1) ≤ sb) := by
  induction fuel generalizing k with
  | zero => cases h
  | succ fuel ih =>
    rw [maxLog2Loop, Nat.shiftRight_eq_div_pow] at h
    have hpos : 0 < 2 ^ k := Nat.two_pow_pos k
    by_cases hc : sb / 2 ^ k ≥ 4
    · rw [if_pos hc] at h
      refine ih _ h (Or.inr ?_)
      rw [Nat.add_sub_cancel]
      exact (Nat.le_div_iff_mul_le hpos).mp hc
    · rw [if_neg hc] at h
      cases h
      refine ⟨fun j hj => ?_, hk⟩
      have h1 : sb < 4 * 2 ^ hi := (Nat.div_lt_iff_lt_mul hpos).mp (by omega)
      have h2 : 2 ^ hi ≤ 2 ^ j := Nat.pow_le_pow_right (by omega) hj
      omega

theorem min_unique {sb a b : Nat} (ha : MinLog2 sb a) (hb : MinLog2 sb b) : a = b := by
  rcases Nat.lt_trichotomy a b with h | h | h
  · have := hb.2 a h; have := ha.1; omega
  · exact h
  · have := ha.2 b h; have := hb.1; omega

theorem max_unique {sb a b : Nat} (ha : MaxLog2 sb a) (hb : MaxLog2 sb b) : a = b := by
  rcases Nat.lt_trichotomy a b with h | h | h
  · have := ha.2 b h; have := hb.1; omega
  · exact h
  · have := hb.2 a h; have := ha.1; omega

theorem loops_eq (w lo hi : Nat) (hw : w ≤ 65536) (hlo : MinLog2 (sbCols w) lo)
    (hhi : MaxLog2 (sbCols w) hi) : ∃ m, maxLog2Loop (sbCols w) 32 0 = some m ∧ m - 1 = hi ∧
      minLog2Loop (sbCols w) 25 0 = some lo ∧ lo ≤ hi := by
  have hsb : sbCols w < 1025 := by unfold sbCols; omega
  obtain ⟨m, l, e1, e2, hle⟩ := loops_table ⟨_, hsb⟩
  simp only at e1 e2
  have h1 := minLoop_some _ _ _ _ e2 (fun j hj => absurd hj (by omega))
  obtain ⟨h2, h3⟩ := maxLoop_some _ _ _ _ e1 (Or.inl rfl)
  have h4 : MaxLog2 (sbCols w) (m - 1) := by
    refine ⟨?_, fun j hj => h2 j (by omega)⟩
    rcases h3 with h3 | h3
    · left; omega
    · right; exact h3
  have e3 := max_unique h4 hhi
  have e4 := min_unique h1 hlo
  subst e4
  exact ⟨m, e1, e3, e2, by omega⟩

theorem reads_tileCols (n lo c hi : Nat) (hn : hi = lo + n) (h1 : lo ≤ c) (h2 : c ≤ hi) :
    Reads (tileColsLoop n lo)
      (List.replicate (c - lo) true ++ if c < hi then [false] else []) c := by
  induction n generalizing lo with
  | zero =>
    have : c = lo := by omega
    subst this
    rw [Nat.sub_self, if_neg (by omega)]
    exact Reads.pure _
  | succ n ih =>
    by_cases h : c = lo
    · subst h
      rw [Nat.sub_self, if_pos (by omega)]
      exact (reads_bit false).bind (e' := []) (Reads.of_neg (by simp) (Reads.pure _))
    · rw [show c - lo = (c - (lo + 1)) + 1 by omega, List.replicate_succ, List.cons_append,
        ← List.singleton_append]
      exact (reads_bit true).bind (Reads.of_pos (by simp) (ih (lo + 1) (by omega) (by omega)))

/-- The results of the tile information. -/
def withTiles (h : Hdr) : Option (Nat × Nat) → Hdr
  | none => h
  | some (c, r) => { h with rowTiles := 2 ^ r, columnTiles := 2 ^ c }

theorem reads_tileInfo (h : Hdr) (f : Filter) (hf : f.Valid) (tiles : Option (Nat × Nat))
    (lo hi : Nat) (hw : h.width ≤ 65536) (hlo : MinLog2 (sbCols h.width) lo)
    (hhi : MaxLog2 (sbCols h.width) hi)
    (ht : ∀ c r, tiles = some (c, r) → lo ≤ c ∧ c ≤ hi ∧ r ≤ 2) :
    Reads (tileInfo h) (f.bits ++ tilesBits lo hi tiles) (withTiles h tiles) := by
  unfold tileInfo Filter.bits
  simp only [List.append_assoc]
  obtain ⟨v1, r1⟩ := reads_literal' 2 f.contextIdx
  obtain ⟨v2, r2⟩ := reads_literal' 6 f.level
  obtain ⟨v3, r3⟩ := reads_literal' 3 f.sharpness
  obtain ⟨v4, r4⟩ := reads_literal' 8 f.baseQ
  refine r1.bind (r2.bind (r3.bind ?_))
  have hd : ∀ {β} (g : Unit → BitM β) (e : List Bool) (b : β), Reads (g ()) e b →
      Reads (do
        let enabled ← readBit
        let x ← (if enabled ≠ 0 then do
            let update ← readBit
            if update ≠ 0 then do
              let _ ← skipDeltas 4
              skipDeltas 2
            else pure ()
          else pure ())
        g x) ((match f.deltas with
          | none => [false]
          | some none => [true, false]
          | some (some (r, m)) => [true, true] ++ (r.flatMap (optBits 7) ++ m.flatMap (optBits 7))) ++ e) b := by
    intro β g e b hg
    rcases hdel : f.deltas with _ | _ | ⟨r, m⟩
    · exact (reads_bit false).bind (Reads.bind (e := []) (a := ())
        (Reads.of_neg (by simp) (Reads.pure ())) hg)
    · exact (reads_bit true).bind (Reads.bind (e := [false]) (a := ())
        (Reads.of_pos (by simp) ((reads_bit false).bind (e' := [])
          (Reads.of_neg (by simp) (Reads.pure ())))) hg)
    · obtain ⟨hr, hm⟩ := hf r m hdel
      have q1 := reads_skipDeltas r
      have q2 := reads_skipDeltas m
      rw [hr] at q1
      rw [hm] at q2
      refine ((reads_bit true).bind (Reads.bind
        (e := [true] ++ (r.flatMap (optBits 7) ++ m.flatMap (optBits 7))) (a := ())
        (Reads.of_pos (by simp) ((reads_bit true).bind
          (Reads.of_pos (by simp) (q1.bind (f := fun _ => skipDeltas 2) q2)))) hg)).congr ?_
      simp
  refine hd (fun _ => _) _ _ ?_
  refine r4.bind ((reads_skipDeltaQ f.q1).bind ((reads_skipDeltaQ f.q2).bind
    ((reads_skipDeltaQ f.q3).bind ?_)))
  cases tiles with
  | none => exact (reads_bit true).bind (e' := []) (Reads.of_neg (by simp) (Reads.pure _))
  | some t =>
    obtain ⟨c, r⟩ := t
    obtain ⟨h1, h2, h3⟩ := ht c r rfl
    refine (reads_bit false).bind (Reads.of_pos (by simp) ?_)
    simp only [sbCols_eq]
    obtain ⟨m, e1, e2, e3, hle⟩ := loops_eq h.width lo hi hw hlo hhi
    rw [e1, e3]
    simp only [e2]
    refine Reads.of_neg (by omega) ?_
    unfold tileBits
    refine (reads_tileCols (hi - lo) lo c hi (by omega) h1 h2).bind ?_
    have hsh : ∀ n : Nat, 1 <<< n = 2 ^ n := fun n => by rw [Nat.shiftLeft_eq, Nat.one_mul]
    simp only [hsh]
    have : r = 0 ∨ r = 1 ∨ r = 2 := by omega
    rcases this with rfl | rfl | rfl
    · exact (reads_bit false).bind (Reads.bind (e := []) (e' := []) (a := 0)
        (Reads.of_neg (by simp) (Reads.pure _)) (Reads.pure _))
    · refine (reads_bit true).bind (Reads.bind (e := [false]) (e' := []) (a := 1)
        (Reads.of_pos (by simp) ?_) (Reads.pure _))
      exact (reads_bit false).bind (e' := []) (Reads.pure _)
    · refine (reads_bit true).bind (Reads.bind (e := [true]) (e' := []) (a := 2)
        (Reads.of_pos (by simp) ?_) (Reads.pure _))
      exact (reads_bit true).bind (e' := []) (Reads.pure _)

/-! ### Whole headers -/

/-- The results of the fields common to all frames. -/
def withStart (h : Hdr) (p : Nat) (key show' resilient : Bool) : Hdr :=
  { h with profile := (p : Int), showExisting := 0, key := key, altref := !show',
           errorResilient := if resilient then 1 else 0 }

theorem reads_start (h : Hdr) (p : Nat) (hp : p ≤ 3) (key show' resilient : Bool) (e : List Bool)
    (b : Bool × Hdr)
    (hf : Reads (if key then keyFrame (withStart h p key show' resilient)
      else nonKeyFrame (withStart h p key show' resilient)) e b) :
    Reads (uncompressedHeader h)
      (startBits p ++ ([false] ++ ([!key] ++ ([show'] ++ ([resilient] ++ e))))) b := by
  have hm : Reads (readLiteral 2) [true, false] 2 := reads_literal 2 2 (by decide)
  have tail : Reads (do
      let showExisting ← readBit
      if showExisting ≠ 0 then
        pure (true, { h with profile := (p : Int), showExisting := showExisting })
      else do
        let k ← readBit
        let a ← readBit
        let e ← readBit
        let h' := { h with profile := (p : Int), showExisting := showExisting, key := k = 0,
                           altref := a = 0, errorResilient := e : Hdr }
        if h'.key then keyFrame h' else nonKeyFrame h')
      ([false] ++ ([!key] ++ ([show'] ++ ([resilient] ++ e)))) b := by
    refine (reads_bit false).bind (Reads.of_neg (by simp) ((reads_bit (!key)).bind
      ((reads_bit show').bind ((reads_bit resilient).bind ?_))))
    cases key <;> cases show' <;> exact hf
  unfold startBits uncompressedHeader
  rw [List.append_assoc, List.append_assoc]
  refine hm.bind (Reads.of_neg (by simp) ?_)
  have : p = 0 ∨ p = 1 ∨ p = 2 ∨ p = 3 := by omega
  rcases this with rfl | rfl | rfl | rfl
  · exact (reads_bit false).bind ((reads_bit false).bind (Reads.bind (e := []) (a := 0)
      (Reads.of_neg (by simp) (Reads.pure _)) tail))
  · exact (reads_bit true).bind ((reads_bit false).bind (Reads.bind (e := []) (a := 1)
      (Reads.of_neg (by simp) (Reads.pure _)) tail))
  · exact (reads_bit false).bind ((reads_bit true).bind (Reads.bind (e := []) (a := 2)
      (Reads.of_neg (by simp) (Reads.pure _)) tail))
  · exact (reads_bit true).bind ((reads_bit true).bind (Reads.bind (e := [false]) (a := 3)
      (Reads.of_pos (by simp) ((reads_bit false).bind (e' := []) (Reads.pure _))) tail))

/-- The results of a key frame. -/
def withKey (h : Hdr) (k : KeyFrame) : Hdr :=
  withTiles { withSize (withColor (withStart h k.profile true k.show' k.resilient) k.profile k.color)
      k.size with frameParallel := if k.resilient then 1 else if k.parallel then 1 else 0 } k.tiles

theorem reads_key (h : Hdr) (k : KeyFrame) (lo hi : Nat)
    (hp : k.profile ≤ 3) (hc : k.color.space < 8) (hz : k.size.Valid) (hf : k.filter.Valid)
    (hlo : MinLog2 (sbCols k.size.width) lo) (hhi : MaxLog2 (sbCols k.size.width) hi)
    (ht : ∀ c r, k.tiles = some (c, r) → lo ≤ c ∧ c ≤ hi ∧ r ≤ 2) :
    Reads (uncompressedHeader h) (k.bits lo hi) (true, withKey h k) := by
  unfold KeyFrame.bits
  simp only [List.append_assoc]
  refine reads_start h k.profile hp true k.show' k.resilient _ _ (Reads.of_pos rfl ?_)
  unfold keyFrame
  refine reads_sync.bind (Reads.of_pos rfl ?_)
  refine (reads_color _ k.profile k.color rfl hp hc).bind ((reads_size _ k.size hz).bind
    ((reads_parallel _ k.resilient k.refreshContext k.parallel rfl).bind ?_))
  have := reads_tileInfo { withSize (withColor (withStart h k.profile true k.show' k.resilient)
      k.profile k.color) k.size with
        frameParallel := if k.resilient then 1 else if k.parallel then 1 else 0 }
    k.filter hf k.tiles lo hi hz.2.1 hlo hhi ht
  exact (this.bind (f := fun h => pure (true, h)) (Reads.pure (true, withKey h k))).congr
    (List.append_nil _)

theorem reads_context {β} (resilient : Bool) (ctx : Nat) (hr : ctx < 4) (g : Nat → BitM β)
    (e : List Bool) (b : β) (hg : Reads (g (if resilient then 0 else ctx)) e b) :
    Reads (do
      let x ← (if (if resilient then 1 else 0) ≠ 0 then pure 0 else readLiteral 2)
      g x) ((if resilient then [] else bitsOfNat 2 ctx) ++ e) b := by
  cases resilient
  · exact Reads.bind (a := ctx) (Reads.of_neg (by simp) (reads_literal 2 _ hr)) hg
  · exact Reads.bind (e := []) (a := 0) (Reads.of_pos (by simp) (Reads.pure 0)) hg

/-- The results of an intra-only frame. -/
def withIntra (h : Hdr) (k : IntraFrame) : Hdr :=
  let h := { withStart h k.profile false false k.resilient with
             intraOnly := 1, resetFrameContext := if k.resilient then 0 else k.resetContext }
  let h := if k.profile > 0 then withColor h k.profile k.color
    else { h with colorSpace := 1, colorRange := 0, subsamplingX := 1, subsamplingY := 1,
                  bitDepth := 8 }
  withSize { h with refreshFlags := k.refresh } k.size

theorem reads_intra (h : Hdr) (k : IntraFrame)
    (hp : k.profile ≤ 3) (hc : k.color.space < 8) (hz : k.size.Valid)
    (hr : k.resetContext < 4) (hf : k.refresh < 256) :
    Reads (uncompressedHeader h) k.bits (true, withIntra h k) := by
  unfold IntraFrame.bits
  simp only [List.append_assoc]
  refine reads_start h k.profile hp false false k.resilient _ _ (Reads.of_neg (by simp) ?_)
  unfold nonKeyFrame
  refine Reads.bind (a := 1) (Reads.of_pos rfl (reads_bit true))
    (reads_context k.resilient k.resetContext hr _ _ _ ?_)
  refine Reads.of_pos (by simp) (reads_sync.bind (Reads.of_pos rfl ?_))
  unfold withIntra
  by_cases h0 : k.profile > 0
  · simp only [if_pos h0]
    refine Reads.bind (Reads.of_pos (by show (k.profile : Int) > 0; omega)
      (reads_color _ k.profile k.color rfl hp hc)) ((reads_literal 8 _ hf).bind ?_)
    exact ((reads_size _ k.size hz).bind (f := fun h => pure (true, h)) (Reads.pure _)).congr
      (List.append_nil _)
  · simp only [if_neg h0]
    refine Reads.bind (e := []) (Reads.of_neg (by show ¬ (k.profile : Int) > 0; omega) (Reads.pure _))
      ((reads_literal 8 _ hf).bind ?_)
    exact ((reads_size _ k.size hz).bind (f := fun h => pure (true, h)) (Reads.pure _)).congr
      (List.append_nil _)

theorem reads_refs (l : List (Nat × Bool)) :
    Reads (skipRefs l.length) (l.flatMap fun r => bitsOfNat 3 r.1 ++ [r.2]) () := by
  induction l with
  | nil => exact Reads.pure ()
  | cons x l ih =>
    obtain ⟨v, hv⟩ := reads_literal' 3 x.1
    rw [List.length_cons, skipRefs, List.flatMap_cons, List.append_assoc]
    exact hv.bind ((reads_bit x.2).bind ih)

theorem reads_found (n i : Nat) (h : i < n) :
    Reads (findRef n) (List.replicate i false ++ [true]) true := by
  induction i generalizing n with
  | zero =>
    obtain ⟨m, rfl⟩ : ∃ m, n = m + 1 := ⟨n - 1, by omega⟩
    exact (reads_bit true).bind (e' := []) (Reads.of_pos (by simp) (Reads.pure _))
  | succ i ih =>
    obtain ⟨m, rfl⟩ : ∃ m, n = m + 1 := ⟨n - 1, by omega⟩
    rw [List.replicate_succ, List.cons_append, ← List.singleton_append]
    exact (reads_bit false).bind (Reads.of_neg (by simp) (ih m (by omega)))

theorem reads_not_found : Reads (findRef 3) [false, false, false] false :=
  (reads_bit false).bind (Reads.of_neg (by simp) ((reads_bit false).bind (Reads.of_neg (by simp)
    ((reads_bit false).bind (e' := []) (Reads.of_neg (by simp) (Reads.pure _))))))


/-- The results of an inter frame. -/
def withInter (h : Hdr) (k : InterFrame) : Hdr :=
  let h := { withStart h k.profile false k.show' k.resilient with
             intraOnly := 0, resetFrameContext := if k.resilient then 0 else k.resetContext,
             refreshFlags := k.refresh }
  match k.size with
  | .inl _ => h
  | .inr z => withSize h z

theorem reads_inter (h : Hdr) (k : InterFrame)
    (hp : k.profile ≤ 3) (hr : k.resetContext < 4) (hf : k.refresh < 256) (hrefs : k.refs.length = 3)
    (hi : ∀ i, k.size = .inl i → i < 3) (hz : ∀ z, k.size = .inr z → z.Valid) :
    Reads (uncompressedHeader h) k.bits (true, withInter h k) := by
  have hrf : Reads (skipRefs 3) (k.refs.flatMap fun r => bitsOfNat 3 r.1 ++ [r.2]) () := by
    have := reads_refs k.refs
    rwa [hrefs] at this
  have hshow : ∀ {β} (g : Nat → BitM β) (e : List Bool) (b : β), Reads (g 0) e b →
      Reads (do
        let x ← (if (!k.show') = true then readBit else pure 0)
        g x) ((if k.show' then [] else [false]) ++ e) b := by
    intro β g e b hg
    cases hk : k.show'
    · exact Reads.bind (a := 0) (Reads.of_pos (by simp) (reads_bit false)) hg
    · exact Reads.bind (e := []) (a := 0) (Reads.of_neg (by simp) (Reads.pure 0)) hg
  unfold InterFrame.bits
  simp only [List.append_assoc]
  refine reads_start h k.profile hp false k.show' k.resilient _ _ (Reads.of_neg (by simp) ?_)
  unfold nonKeyFrame
  refine hshow _ _ _ (reads_context k.resilient k.resetContext hr _ _ _ (Reads.of_neg (by simp) ?_))
  refine (reads_literal 8 _ hf).bind (hrf.bind ?_)
  unfold withInter
  cases hs : k.size with
  | inl i =>
    refine Reads.congr (Reads.bind (reads_found 3 i (hi i hs)) (e' := []) ?_) (List.append_nil _)
    exact Reads.of_pos rfl (Reads.pure _)
  | inr z =>
    refine reads_not_found.bind (Reads.of_neg (by simp) ?_)
    exact ((reads_size _ z (hz z hs)).bind (f := fun h => pure (true, h)) (Reads.pure _)).congr
      (List.append_nil _)

theorem parse_of_reads (h h' : Hdr) (frame : Bytes) (e r : List Bool) (ok : Bool)
    (hr : Reads (uncompressedHeader h.reset) e (ok, h')) (hb : bitsOf frame = e ++ r)
    (he : e ≠ []) : parseHeader h frame = .ok (ok, h', e.length) := by
  unfold parseHeader
  rw [if_neg]
  · rw [hr ⟨frame, 0⟩ r hb]
    simp
  · intro h0
    have := congrArg List.length hb
    rw [bitsOf_length, h0, List.length_append] at this
    have : e.length = 0 := by omega
    exact he (List.length_eq_zero_iff.mp this)

end Verif.Vp9

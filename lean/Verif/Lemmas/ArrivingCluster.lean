/-
Blocks and clusters on two readers of the same file, one of which has only the beginning of it.
-/
import Verif.Lemmas.ArrivingPrims

namespace Verif.Par
open Verif

variable {r R : Rdr}

/-- The code says that more data is needed: `E_BUFFER_NOT_FULL`, or the position up to which it is. -/
def Waits (c : Int) : Prop := 0 < c ∨ c = E_BUFFER_NOT_FULL

/-- The same outcome, or the first says that more data is needed, or both are errors. -/
inductive Agree {α : Type} : Res α → Res α → Prop where
  | same (x : Res α) : Agree x x
  | waits {c : Int} (h : Waits c) (X : Res α) : Agree (.err c) X
  | errs (c d : Int) : Agree (.err c) (.err d)

theorem Agree.of_eq {α : Type} {x y : Res α} (h : x = y) : Agree x y := h ▸ .same x

theorem Agree.of_same {α : Type} {x y : Res α} (h : Same x y) : Agree x y := by
  cases h
  · exact .same _
  · exact .errs _ _

theorem Agree.bind {α β : Type} {x X : Res α} {f F : α → Res β} (h : Agree x X)
    (hf : ∀ a, x = .ok a → X = .ok a → Agree (f a) (F a)) : Agree (x >>= f) (X >>= F) := by
  cases h with
  | errs c d => exact .errs c d
  | waits h X => exact .waits h _
  | same =>
    cases x with
    | ok a => exact hf a rfl rfl
    | err c => exact .same _
    | ub => exact .same _

theorem Agree.ok {α : Type} {x X : Res α} (h : Agree x X) {a : α} (hx : x = .ok a) : X = .ok a := by
  cases h with
  | same => exact hx
  | waits h X => cases hx
  | errs c d => cases hx

theorem Agree.ite {α : Type} {p : Prop} [Decidable p] {x X y Y : Res α} (hx : p → Agree x X) (hy : ¬ p → Agree y Y) :
    Agree (if p then x else y) (if p then X else Y) := by
  split
  · exact hx ‹_›
  · exact hy ‹_›

/-- `if (beyond what is there) return E_BUFFER_NOT_FULL;` -/
theorem Agree.wait {p q : Prop} [Decidable p] [Decidable q] {c d : Int} (hc : Waits c) (h : q → p) :
    Agree (Res.refuse p c) (Res.refuse q d) := by
  by_cases hp : p
  · rw [Res.refuse_pos hp]; exact .waits hc _
  · rw [Res.refuse_neg hp, Res.refuse_neg fun hq => hp (h hq)]; exact .same _

theorem waits_full : Waits E_BUFFER_NOT_FULL := .inr rfl

/-! ### Fields -/

theorem getUIntLength_there (h : r.Ext R) {p : Nat} (hp : p < r.data.length) :
    getUIntLength r p = getUIntLength R p := by
  have := h.len
  have h1 := h.less
  have h2 := h.sane
  unfold getUIntLength
  simp only [Int.toNat_natCast]
  rw [if_neg (by omega), if_neg (by omega), if_neg (by omega), if_neg (by omega), if_neg (by omega), if_neg (by omega),
    h.byte hp]

theorem getUIntLength_first {p n : Nat} {x : Int} (hp : p < r.data.length) (h : getUIntLength r p = .ok (x, n)) :
    x = 0 ∧ ∃ b, r.byte p = .ok b ∧ n = announced b := by
  unfold getUIntLength at h
  simp only [Int.toNat_natCast] at h
  rw [if_neg (by omega)] at h
  split at h
  · cases h
  rw [if_neg (by omega)] at h
  split at h
  · cases h
  · rename_i b hb
    split at h
    · cases h
    · simp only [Res.ok.injEq, Prod.mk.injEq] at h
      exact ⟨h.1.symm, b, hb, h.2.symm⟩

/-- The checks before a field: they agree, and if they succeed the field is there. -/
theorem fieldIn_agree (h : r.Ext R) (stop : Option Nat) (pos : Nat) : Agree (fieldIn r stop pos) (fieldIn R stop pos) := by
  have := h.len
  unfold fieldIn
  refine Agree.bind (Agree.wait waits_full (by omega)) fun _ h1 _ => ?_
  rw [Res.refuse_eq_ok] at h1
  rw [getUIntLength_there h (by omega)]
  refine Agree.bind (.same _) fun x _ _ => ?_
  obtain ⟨x, n⟩ := x
  refine Agree.bind (.same _) fun _ _ _ => Agree.bind (.same _) fun _ _ _ => Agree.bind (.same _) fun _ _ _ => ?_
  exact Agree.bind (Agree.wait waits_full (by omega)) fun _ _ _ => .same _

theorem fieldIn_there {stop : Option Nat} {pos n : Nat} (h : fieldIn r stop pos = .ok n) :
    ∃ b, r.byte pos = .ok b ∧ n = announced b ∧ pos + announced b ≤ r.data.length := by
  unfold fieldIn at h
  simp only [Res.bind_eq_ok, Res.refuse_eq_ok] at h
  obtain ⟨_, h1, ⟨x, len⟩, h2, _, -, _, -, _, -, _, h3, h4⟩ := h
  cases h4
  obtain ⟨-, b, hb, e⟩ := getUIntLength_first (by omega) h2
  subst e
  exact ⟨b, hb, rfl, by omega⟩

theorem fieldIn_readID (h : r.Ext R) {stop : Option Nat} {pos n : Nat} (hf : fieldIn r stop pos = .ok n) :
    readID r pos = readID R pos := by
  obtain ⟨b, hb, -, hle⟩ := fieldIn_there hf
  exact readID_ext h hb hle

theorem fieldIn_readUInt (h : r.Ext R) {stop : Option Nat} {pos n : Nat} (hf : fieldIn r stop pos = .ok n) :
    readUInt r pos = readUInt R pos := by
  obtain ⟨b, hb, -, hle⟩ := fieldIn_there hf
  exact readUInt_ext h hb hle

theorem fieldLength_eq (r : Rdr) (pos limit : Nat) : fieldLength r pos limit = fieldIn r (some limit) pos := by
  unfold fieldLength fieldIn
  simp only [past, Option.any_some, decide_eq_true_eq, Nat.lt_iff_add_one_le, ge_iff_le, gt_iff_lt]

theorem headField_agree (h : r.Ext R) (stop : Option Nat) (pos : Nat) : Agree (headField r stop pos) (headField R stop pos) := by
  have := h.len
  unfold headField
  refine Agree.bind (Agree.wait waits_full (by omega)) fun _ h1 _ => ?_
  rw [Res.refuse_eq_ok] at h1
  rw [getUIntLength_there h (by omega), h.total]
  refine Agree.bind (.same _) fun x _ _ => ?_
  obtain ⟨x, n⟩ := x
  refine Agree.bind (.same _) fun _ _ _ => Agree.bind (.same _) fun _ _ _ => Agree.bind (.same _) fun _ _ _ => ?_
  refine Agree.ite (fun _ => .same _) fun _ => ?_
  exact Agree.bind (Agree.wait waits_full (by omega)) fun _ _ _ => .same _

theorem headField_there {stop : Option Nat} {pos n : Nat} (h : headField r stop pos = .ok (some n)) :
    ∃ b, r.byte pos = .ok b ∧ pos + announced b ≤ r.data.length := by
  unfold headField at h
  simp only [Res.bind_eq_ok, Res.refuse_eq_ok] at h
  obtain ⟨_, h1, ⟨x, len⟩, h2, _, -, _, -, _, -, h⟩ := h
  obtain ⟨-, b, hb, e⟩ := getUIntLength_first (by omega) h2
  subst e
  split at h
  · cases h
  · simp only [Res.bind_eq_ok, Res.refuse_eq_ok] at h
    obtain ⟨_, h3, -⟩ := h
    exact ⟨b, hb, by omega⟩

/-! ### Blocks -/

theorem readFlag_ext (h : r.Ext R) {p : Nat} (hp : p < r.data.length) : readFlag r p = readFlag R p := by
  unfold readFlag
  rw [h.byte hp]

theorem xiphSize_ext (h : r.Ext R) : ∀ (f p n : Nat), p + f ≤ r.data.length → xiphSize r f p n = xiphSize R f p n
  | 0, _, _, _ => rfl
  | f + 1, p, n, hp => by
    unfold xiphSize
    rw [readFlag_ext h (by omega)]
    congr 1
    funext v
    rw [xiphSize_ext h f _ _ (by omega)]

theorem xiphSizes_ext (h : r.Ext R) {stop : Nat} (hs : stop ≤ r.data.length) : ∀ (n p : Nat),
    xiphSizes r stop n p = xiphSizes R stop n p
  | 0, _ => rfl
  | n + 1, p => by
    unfold xiphSizes
    have e : xiphSize r (stop - p) p 0 = xiphSize R (stop - p) p 0 := by
      rcases Nat.lt_or_ge p stop with hp | hp
      · exact xiphSize_ext h _ _ _ (by omega)
      · rw [Nat.sub_eq_zero_of_le hp]
        rfl
    rw [e]
    congr 1
    funext ⟨sz, p'⟩
    simp only
    rw [xiphSizes_ext h hs n p']

theorem ebmlSizes_same (h : r.Ext R) {stop : Nat} (hs : stop ≤ r.data.length) : ∀ (n p fs s : Nat),
    Same (ebmlSizes r stop n p fs s) (ebmlSizes R stop n p fs s)
  | 0, _, _, _ => .same _
  | n + 1, p, fs, s => by
    unfold ebmlSizes
    refine Same.bind (.same _) fun _ _ _ => ?_
    rcases readUInt_any h p with e | ⟨⟨c, e⟩, hl⟩
    · rw [e]
      refine Same.bind (.same _) fun x _ _ => ?_
      obtain ⟨v, len⟩ := x
      exact Same.bind (.same _) fun _ _ _ => Same.bind (.same _) fun _ _ _ => Same.bind (.same _) fun _ _ _ =>
        Same.bind (.same _) fun _ _ _ => Same.bind (ebmlSizes_same h hs n _ _ _) fun _ _ _ => .same _
    · rw [e]
      cases hR : readUInt R p with
      | ub => exact absurd hR (readUInt_safe _ _)
      | err c => exact .errs _ _
      | ok x =>
        obtain ⟨v, len⟩ := x
        have := hl v len hR
        simp only [Res.orErr_ok, Res.bind_ok]
        rw [Res.refuse_pos (by omega)]
        exact .errs _ _

theorem ebmlLace_same (h : r.Ext R) {stop : Nat} (hs : stop ≤ r.data.length) (count pos : Nat) :
    Same (ebmlLace r stop count pos) (ebmlLace R stop count pos) := by
  unfold ebmlLace
  refine Same.bind (.same _) fun _ _ _ => ?_
  rcases readUInt_any h pos with e | ⟨⟨c, e⟩, hl⟩
  · rw [e]
    refine Same.bind (.same _) fun x _ _ => ?_
    obtain ⟨v, len⟩ := x
    exact Same.bind (.same _) fun _ _ _ => Same.bind (.same _) fun _ _ _ => Same.bind (.same _) fun _ _ _ =>
      Same.bind (.same _) fun _ _ _ => Same.ite (fun _ => .same _) fun _ =>
      Same.bind (ebmlSizes_same h hs _ _ _ _) fun _ _ _ => .same _
  · rw [e]
    cases hR : readUInt R pos with
    | ub => exact absurd hR (readUInt_safe _ _)
    | err c => exact .errs _ _
    | ok x =>
      obtain ⟨v, len⟩ := x
      have := hl v len hR
      simp only [Res.orErr_ok, Res.bind_ok]
      by_cases h1 : v ≤ 0
      · rw [Res.refuse_pos h1]; exact .errs _ _
      by_cases h2 : v > longMax
      · rw [Res.refuse_neg h1, Res.refuse_pos h2]; exact .errs _ _
      rw [Res.refuse_neg h1, Res.refuse_neg h2]
      have h3 : pos + len > stop := by omega
      simp only [Res.bind_ok]
      rw [Res.refuse_pos h3]
      exact .errs _ _

theorem parseFrames_same (h : r.Ext R) {stop : Nat} {flags : UInt8}
    (hs : (flags &&& 0x06) >>> 1 ≠ 0 → stop ≤ r.data.length) (pos : Nat) :
    Same (parseFrames r stop flags pos) (parseFrames R stop flags pos) := by
  unfold parseFrames
  refine Same.ite (fun _ => .same _) fun hl => ?_
  have hs := hs hl
  refine Same.bind (.same _) fun _ hp _ => ?_
  rw [Res.refuse_eq_ok] at hp
  rw [readFlag_ext h (by omega)]
  refine Same.bind (.same _) fun b _ _ => Same.bind (.same _) fun _ _ _ => Same.ite (fun _ => ?_) fun _ =>
    Same.ite (fun _ => .same _) fun _ => ebmlLace_same h hs _ _
  unfold xiphLace
  rw [xiphSizes_ext h hs]
  exact .same _

/-- A block whose head is there, and all of it if it is laced. -/
theorem blockParse_begun (h : r.Ext R) {start size : Nat} {b : UInt8} (hb : r.byte start = .ok b)
    (hh : start + announced b + 3 ≤ r.data.length)
    (hl : ∀ f, r.byte (start + announced b + 2) = .ok f → (f &&& 0x06) >>> 1 ≠ 0 → start + size ≤ r.data.length) (dp : Int) :
    Same (blockParse r start size dp) (blockParse R start size dp) := by
  unfold blockParse
  rw [readUInt_ext h hb (by omega)]
  refine Same.bind (.same _) fun x hx _ => ?_
  obtain ⟨v, n⟩ := x
  rw [Res.orErr_eq_ok, ← readUInt_ext h hb (by omega)] at hx
  obtain ⟨b', hb', -, e⟩ := readUInt_first hx
  rw [hb] at hb'
  cases hb'
  subst e
  refine Same.bind (.same _) fun _ _ _ => Same.bind (.same _) fun _ _ _ => Same.bind (.same _) fun _ _ _ => ?_
  have e := unserializeInt_ext h (p := start + announced b) (n := 2) (by omega)
  refine Same.bind (Same.of_eq (congrArg (Res.orErr _) e)) fun _ _ _ => Same.bind (.same _) fun _ _ _ =>
    Same.bind (.same _) fun _ _ _ => Same.bind (.same _) fun _ _ _ => ?_
  rw [readFlag_ext h (by omega)]
  refine Same.bind (.same _) fun f hf _ => Same.bind (parseFrames_same h (hl f ?_) _) fun _ _ _ => .same _
  rw [← readFlag_ext h (by omega)] at hf
  unfold readFlag at hf
  split at hf
  · cases hf; assumption
  · cases hf

/-- A block that is there. -/
theorem blockParse_there (h : r.Ext R) {start size : Nat} (hs : start + size ≤ r.data.length) (dp : Int) :
    Same (blockParse r start size dp) (blockParse R start size dp) := by
  unfold blockParse
  rcases readUInt_any h start with e | ⟨⟨c, e⟩, hl⟩
  · rw [e]
    refine Same.bind (.same _) fun x hx _ => ?_
    obtain ⟨v, n⟩ := x
    refine Same.bind (.same _) fun _ _ _ => Same.bind (.same _) fun _ _ _ => Same.bind (.same _) fun _ h2 _ => ?_
    rw [Res.refuse_eq_ok] at h2
    have e := unserializeInt_ext h (p := start + n) (n := 2) (by omega)
    refine Same.bind (Same.of_eq (congrArg (Res.orErr _) e)) fun _ _ _ => Same.bind (.same _) fun _ _ _ =>
      Same.bind (.same _) fun _ _ _ => Same.bind (.same _) fun _ h3 _ => ?_
    rw [Res.refuse_eq_ok] at h3
    rw [readFlag_ext h (by omega)]
    exact Same.bind (.same _) fun f _ _ => Same.bind (parseFrames_same h (fun _ => hs) _) fun _ _ _ => .same _
  · rw [e]
    cases hR : readUInt R start with
    | ub => exact absurd hR (readUInt_safe _ _)
    | err c => exact .errs _ _
    | ok x =>
      obtain ⟨v, len⟩ := x
      have := hl v len hR
      simp only [Res.orErr_ok, Res.bind_ok]
      by_cases h1 : v ≤ 0
      · rw [Res.refuse_pos h1]; exact .errs _ _
      rw [Res.refuse_neg h1]
      have h3 : start + len > start + size := by omega
      simp only [Res.bind_ok]
      rw [Res.refuse_pos h3]
      exact .errs _ _

theorem checkBlockHead_agree (h : r.Ext R) (pos stop : Nat) :
    Agree (checkBlockHead r pos stop) (checkBlockHead R pos stop) := by
  have := h.len
  unfold checkBlockHead
  simp only [fieldLength_eq]
  refine Agree.bind (fieldIn_agree h _ _) fun n hn _ => ?_
  rw [fieldIn_readUInt h hn]
  refine Agree.bind (.same _) fun x _ _ => ?_
  obtain ⟨v, len⟩ := x
  refine Agree.bind (.same _) fun _ _ _ => Agree.bind (.same _) fun _ _ _ =>
    Agree.bind (Agree.wait waits_full (by omega)) fun _ _ _ => Agree.bind (.same _) fun _ _ _ =>
    Agree.bind (Agree.wait waits_full (by omega)) fun _ h3 _ => ?_
  rw [Res.refuse_eq_ok] at h3
  rw [h.byte (by omega)]
  refine Agree.bind (.same _) fun f _ _ => Agree.bind (.same _) fun _ _ _ => ?_
  exact Agree.wait waits_full fun hq => ⟨hq.1, by omega⟩

/-- What `checkBlockHead` has made sure of. -/
theorem checkBlockHead_there {pos stop : Nat} {u : Unit} (h : checkBlockHead r pos stop = .ok u) :
    ∃ b, r.byte pos = .ok b ∧ pos + announced b + 3 ≤ r.data.length ∧
      ∀ f, r.byte (pos + announced b + 2) = .ok f → (f &&& 0x06) >>> 1 ≠ 0 → stop ≤ r.data.length := by
  unfold checkBlockHead at h
  simp only [fieldLength_eq, Res.bind_eq_ok, Res.refuse_eq_ok] at h
  obtain ⟨n, hn, ⟨v, len⟩, hv, _, -, _, -, _, -, _, -, _, h3, f, hf, _, -, hl⟩ := h
  obtain ⟨b, hb, -, -⟩ := fieldIn_there hn
  obtain ⟨b', hb', -, e⟩ := readUInt_first hv
  rw [hb] at hb'
  cases hb'
  subst e
  refine ⟨b, hb, by omega, fun f' hf' hne => ?_⟩
  rw [hf'] at hf
  cases hf
  exact Nat.le_of_not_lt fun hlt => hl ⟨hne, hlt⟩

theorem parseSimpleBlock_agree (h : r.Ext R) (size pos : Nat) :
    Agree (parseSimpleBlock r size pos) (parseSimpleBlock R size pos) := by
  unfold parseSimpleBlock
  rw [Res.assert_pos h.less, Res.assert_pos h.sane]
  refine Agree.bind (.same _) fun _ _ _ => Agree.bind (checkBlockHead_agree h _ _) fun _ hc _ => ?_
  obtain ⟨b, hb, h3, hl⟩ := checkBlockHead_there hc
  unfold createSimpleBlock
  exact Agree.bind (Agree.bind (Agree.of_same (blockParse_begun h hb h3 hl _)) fun _ _ _ => .same _) fun _ _ _ => .same _

/-! ### Block groups -/

theorem unserializeInt_err {p n : Nat} {c : Int} (h : unserializeInt r p n = .err c) (h0 : R.Ext r) :
    (∃ d, unserializeInt R p n = .err d) := by
  cases hR : unserializeInt R p n with
  | err d => exact ⟨d, rfl⟩
  | ub => exact absurd hR (unserializeInt_safe h0.small _ _)
  | ok v =>
    exfalso
    rcases Nat.lt_or_ge R.data.length (p + n) with hlt | hge
    · unfold unserializeInt at hR
      split at hR
      · cases hR
      rename_i hg
      split at hR
      · rename_i s hs
        rw [if_pos (by rw [byte_error hs]; exact h0.fails)] at hR
        cases hR
      · rename_i b hb
        have hp : p < R.data.length := by
          rcases Nat.lt_or_ge p R.data.length with hc | hc
          · exact hc
          · rw [Int.toNat_natCast, byte_beyond hc] at hb; cases hb
        have key : ∀ (m acc q : Nat), R.data.length < q + m → q ≤ R.data.length → ∀ v, unserializeUIntLoop R acc q m ≠ .ok v := by
          intro m
          induction m with
          | zero => intro acc q h1 h2; omega
          | succ m ih =>
            intro acc q h1 h2 v hv
            unfold unserializeUIntLoop at hv
            split at hv
            · split at hv <;> cases hv
            · rename_i b hb
              have hlt : q < R.data.length := by
                rcases Nat.lt_or_ge q R.data.length with hc | hc
                · exact hc
                · rw [byte_beyond hc] at hb; cases hb
              exact ih _ _ (by omega) (by omega) v hv
        simp only [Int.toNat_natCast] at hR
        split at hR
        · rename_i w hw
          exact key _ _ _ (by omega) (by omega) w hw
        · cases hR
        · cases hR
    · rw [unserializeInt_ext h0 hge, h] at hR
      cases hR

theorem blockGroupLoop_agree (h : r.Ext R) {stop : Nat} (hs : stop ≤ r.data.length) : ∀ (f pos : Nat) (dp : Int),
    Agree (blockGroupLoop r stop f pos dp) (blockGroupLoop R stop f pos dp)
  | 0, _, _ => .same _
  | f + 1, pos, dp => by
    unfold blockGroupLoop
    simp only [fieldLength_eq]
    refine Agree.ite (fun hlt => ?_) fun _ => .same _
    refine Agree.bind (fieldIn_agree h _ _) fun n hn _ => ?_
    rw [fieldIn_readID h hn]
    refine Agree.bind (.same _) fun x _ _ => ?_
    obtain ⟨id, len⟩ := x
    refine Agree.bind (.same _) fun _ _ _ => Agree.bind (fieldIn_agree h _ _) fun m hm _ => ?_
    rw [fieldIn_readUInt h hm]
    refine Agree.bind (.same _) fun x _ _ => ?_
    obtain ⟨size, len2⟩ := x
    refine Agree.bind (.same _) fun _ _ _ => Agree.ite (fun _ => blockGroupLoop_agree h hs f _ _) fun h0 =>
      Agree.bind (.same _) fun _ _ _ => ?_
    by_cases hin : pos + len + len2 + size ≤ stop
    · refine Agree.bind (Agree.of_eq ?_) fun dp _ _ => ?_
      · rw [unserializeInt_ext h (p := pos + len + len2) (n := size) (by omega)]
      · exact Agree.ite (fun _ => Agree.bind (.same _) fun _ _ _ => blockGroupLoop_agree h hs f _ _) fun _ =>
          Agree.bind (.same _) fun _ _ _ => Agree.bind (checkBlockHead_agree h _ _) fun _ _ _ => blockGroupLoop_agree h hs f _ _
    · have key : ∀ q : Rdr, q.Fails → ∃ c, (do
          let dp ← (if id = 0x75A2 then unserializeInt q (pos + len + len2 : Nat) size else .ok dp : Res Int)
          if id ≠ 0xA1 then do
            let pos := pos + len + len2 + size
            Res.refuse (pos > stop) E_FILE_FORMAT_INVALID
            blockGroupLoop q stop f pos dp
          else do
            Res.refuse (pos + len + len2 + size > stop) E_FILE_FORMAT_INVALID
            checkBlockHead q (pos + len + len2) (pos + len + len2 + size)
            blockGroupLoop q stop f (pos + len + len2 + size) dp : Res (Nat × Int)) = .err c := by
        intro q hq
        have hsafe : Safe (if id = 0x75A2 then unserializeInt q (pos + len + len2 : Nat) size else .ok dp : Res Int) :=
          Safe.ite (fun _ => unserializeInt_safe hq _ _) fun _ => Safe.ok _
        cases hx : (if id = 0x75A2 then unserializeInt q (pos + len + len2 : Nat) size else .ok dp : Res Int) with
        | ub => exact absurd hx hsafe
        | err c => exact ⟨c, rfl⟩
        | ok v =>
          simp only [Res.bind_ok]
          rw [Res.refuse_pos (by omega)]
          split <;> exact ⟨_, rfl⟩
      obtain ⟨c, hc⟩ := key r h.small
      obtain ⟨d, hd⟩ := key R h.big
      exact hc ▸ hd ▸ Agree.errs c d

theorem groupField_ext (h : r.Ext R) {id pos size : Nat} (hp : pos + size ≤ r.data.length) (a : GroupAcc) :
    groupField r id pos size a = groupField R id pos size a := by
  unfold groupField unserializeNonneg
  rw [unserializeUInt_ext h hp, unserializeInt_ext h hp]

theorem groupField_blk {id pos size stop : Nat} (hp : pos + size ≤ stop) {a a' : GroupAcc}
    (ha : ∀ x, a.blk = some x → x.1 + x.2 ≤ stop) (h : groupField r id pos size a = .ok a') :
    ∀ x, a'.blk = some x → x.1 + x.2 ≤ stop := by
  unfold groupField at h
  split at h
  · cases h
    split
    · intro x hx
      cases hx
      exact hp
    · exact ha
  split at h
  · simp only [Res.bind_eq_ok, Res.refuse_eq_ok] at h
    obtain ⟨_, -, d, -, h⟩ := h
    cases h
    exact ha
  split at h
  · simp only [Res.bind_eq_ok, Res.refuse_eq_ok] at h
    obtain ⟨_, -, d, -, h⟩ := h
    cases h
    split <;> exact ha
  · cases h
    exact ha

/-- The second loop over a block group, after the first has succeeded. -/
theorem groupLoop_ext (h : r.Ext R) {stop : Nat} (hs : stop ≤ r.data.length) :
    ∀ (f pos : Nat) (dp : Int) (res : Nat × Int) (a : GroupAcc), blockGroupLoop r stop f pos dp = .ok res →
      (∀ x, a.blk = some x → x.1 + x.2 ≤ stop) →
      groupLoop r stop f pos a = groupLoop R stop f pos a ∧
        ∀ q a', groupLoop r stop f pos a = .ok (q, a') → ∀ x, a'.blk = some x → x.1 + x.2 ≤ stop := by
  intro f
  induction f with
  | zero =>
    intro pos dp res a _ ha
    refine ⟨rfl, fun q a' e => ?_⟩
    cases e
    exact ha
  | succ f ih =>
    intro pos dp res a hb ha
    unfold blockGroupLoop at hb
    unfold groupLoop
    by_cases hlt : pos < stop
    case neg =>
      rw [if_neg hlt, if_neg hlt]
      refine ⟨rfl, fun q a' e => ?_⟩
      cases e
      exact ha
    rw [if_pos hlt] at hb
    rw [if_pos hlt, if_pos hlt]
    simp only [Res.bind_eq_ok, fieldLength_eq] at hb
    obtain ⟨l1, hf1, ⟨id, len⟩, hid, _, -, l2, hf2, ⟨size, len2⟩, hsz, _, hst, hb⟩ := hb
    have hid' := fieldIn_readID h hf1
    have hsz' := fieldIn_readUInt h hf2
    simp only [Res.refuse_eq_ok] at hst hb
    rw [← hid', hid]
    simp only [Res.orErr_ok, Res.bind_ok] at hsz hsz' hst hb ⊢
    have hin : pos + len + len2 + size ≤ stop ∧ ∃ f' dp', f' = f ∧ blockGroupLoop r stop f' (pos + len + len2 + size) dp' = .ok res := by
      by_cases h0 : size = 0
      · rw [if_pos h0] at hb
        subst h0
        exact ⟨by omega, f, _, rfl, hb⟩
      · rw [if_neg h0] at hb
        simp only [Res.bind_eq_ok] at hb
        obtain ⟨_, -, dp', -, hb⟩ := hb
        by_cases hA : id ≠ 0xA1
        · rw [if_pos hA] at hb
          simp only [Res.bind_eq_ok, Res.refuse_eq_ok] at hb
          obtain ⟨_, hle, hb⟩ := hb
          exact ⟨by omega, f, _, rfl, hb⟩
        · rw [if_neg hA] at hb
          simp only [Res.bind_eq_ok, Res.refuse_eq_ok] at hb
          obtain ⟨_, hle, _, -, hb⟩ := hb
          exact ⟨by omega, f, _, rfl, hb⟩
    obtain ⟨hle, f', dp', rfl, hrec⟩ := hin
    rw [Res.refuse_neg (by omega : ¬ pos + len > stop)]
    simp only [Res.bind_ok]
    rw [← hsz', hsz]
    simp only [Res.bind_ok]
    rw [Res.assert_pos (by omega)]
    simp only [Res.bind_ok]
    rw [← groupField_ext h (by omega)]
    cases hg : groupField r id (pos + len + len2) size a with
    | ub => exact ⟨rfl, fun q a' e => (by cases e)⟩
    | err c => exact ⟨rfl, fun q a' e => (by cases e)⟩
    | ok a1 =>
      simp only [Res.bind_ok]
      rw [Res.refuse_neg (by omega : ¬ pos + len + len2 + size > stop)]
      simp only [Res.bind_ok]
      exact ih _ _ _ _ hrec (groupField_blk hle ha hg)

theorem parseBlockGroup_agree (h : r.Ext R) (size pos : Nat) :
    Agree (parseBlockGroup r size pos) (parseBlockGroup R size pos) := by
  have := h.len
  unfold parseBlockGroup
  rw [Res.assert_pos h.less, Res.assert_pos h.sane, h.total]
  refine Agree.bind (.same _) fun _ _ _ => Agree.bind (.same _) fun _ _ _ =>
    Agree.bind (Agree.wait waits_full (by omega)) fun _ hs _ => ?_
  rw [Res.refuse_eq_ok] at hs
  refine Agree.bind (blockGroupLoop_agree h (by omega) _ _ _) fun x hx _ => ?_
  obtain ⟨p, dp⟩ := x
  refine Agree.bind (.same _) fun _ _ _ => Agree.bind ?_ fun _ _ _ => .same _
  unfold createBlockGroup
  obtain ⟨e, hblk⟩ := groupLoop_ext h (by omega) _ _ _ _ {} hx (fun x e => by cases e)
  simp only
  rw [← e]
  refine Agree.bind (.same _) fun y hy _ => ?_
  obtain ⟨q, a⟩ := y
  cases hb : a.blk with
  | none => exact .same _
  | some b =>
    have := hblk q a hy b hb
    obtain ⟨bp, bs⟩ := b
    simp only
    exact Agree.bind (.same _) fun _ _ _ => Agree.bind (Agree.of_same (blockParse_there h (by simp only at this; omega) _))
      fun _ _ _ => .same _

/-! ### Clusters -/

theorem hasBlockLoop_agree (h : r.Ext R) (stop : Option Nat) : ∀ (f F pos : Nat), r.data.length + 1 ≤ f + pos →
    R.data.length + 1 ≤ F + pos → Agree (hasBlockLoop r stop f pos) (hasBlockLoop R stop F pos) := by
  intro f
  induction f with
  | zero =>
    intro F pos hf hF
    unfold hasBlockLoop
    cases F with
    | zero => exact Agree.ite (fun _ => .same _) fun _ => .same _
    | succ F => exact Agree.ite (fun _ => .same _) fun _ => .waits waits_full _
  | succ f ih =>
    intro F pos hf hF
    have hl := h.len
    unfold hasBlockLoop
    cases F with
    | zero =>
      refine Agree.ite (fun _ => .same _) fun _ => ?_
      have : fieldIn r stop pos = .err E_BUFFER_NOT_FULL := by
        unfold fieldIn
        rw [Res.refuse_pos (by omega)]
        rfl
      rw [this]
      exact .same _
    | succ F =>
      refine Agree.ite (fun _ => .same _) fun _ => Agree.bind (fieldIn_agree h _ _) fun n hn _ => ?_
      rw [fieldIn_readID h hn]
      refine Agree.bind (.same _) fun x hx _ => ?_
      obtain ⟨id, len⟩ := x
      have hx' := readID_first hx
      obtain ⟨b1, -, -, e1⟩ := hx'
      have := announced_pos b1
      refine Agree.ite (fun _ => .same _) fun _ => Agree.bind (.same _) fun _ _ _ => Agree.bind (fieldIn_agree h _ _) fun m hm _ => ?_
      rw [fieldIn_readUInt h hm]
      refine Agree.bind (.same _) fun x _ _ => ?_
      obtain ⟨size, len2⟩ := x
      exact Agree.bind (.same _) fun _ _ _ => Agree.ite (fun _ => ih _ _ (by omega) (by omega)) fun _ =>
        Agree.bind (.same _) fun _ _ _ => Agree.bind (.same _) fun _ _ _ => Agree.ite (fun _ => .same _) fun _ =>
        ih _ _ (by omega) (by omega)

theorem hasBlockEntries_agree (h : r.Ext R) (stop : Option Nat) (pos : Nat) :
    Agree (hasBlockEntries r stop pos) (hasBlockEntries R stop pos) := by
  unfold hasBlockEntries
  rw [Res.assert_pos h.less, Res.assert_pos h.sane, h.total]
  refine Agree.bind (.same _) fun _ _ _ => Agree.ite (fun _ => .same _) fun _ =>
    Agree.bind (headField_agree h _ _) fun x hx _ => ?_
  cases x with
  | none => exact .same _
  | some x =>
    simp only
    obtain ⟨b, hb, hle⟩ := headField_there hx
    rw [readID_ext h hb hle]
    refine Agree.bind (.same _) fun y _ _ => ?_
    obtain ⟨id, len⟩ := y
    refine Agree.bind (.same _) fun _ _ _ => Agree.bind (headField_agree h _ _) fun x hx _ => ?_
    cases x with
    | none => exact .same _
    | some x =>
      simp only
      obtain ⟨b, hb, hle⟩ := headField_there hx
      rw [readUInt_ext h hb hle]
      refine Agree.bind (.same _) fun y _ _ => ?_
      obtain ⟨size, len2⟩ := y
      exact Agree.ite (fun _ => .same _) fun _ => Agree.ite (fun _ => hasBlockLoop_agree h _ _ _ _ (by omega) (by omega)) fun _ =>
        Agree.bind (.same _) fun _ _ _ => Agree.ite (fun _ => .same _) fun _ => hasBlockLoop_agree h _ _ _ _ (by omega) (by omega)

theorem clusterLoadLoop_agree (h : r.Ext R) (stop : Option Nat) : ∀ (f F pos : Nat) (a : LoadAcc), r.data.length + 1 ≤ f + pos →
    R.data.length + 1 ≤ F + pos → Agree (clusterLoadLoop r stop f pos a) (clusterLoadLoop R stop F pos a) := by
  intro f
  induction f with
  | zero =>
    intro F pos a hf hF
    unfold clusterLoadLoop
    cases F with
    | zero => exact Agree.ite (fun _ => .same _) fun _ => .same _
    | succ F => exact Agree.ite (fun _ => .same _) fun _ => .waits waits_full _
  | succ f ih =>
    intro F pos a hf hF
    have hl := h.len
    unfold clusterLoadLoop
    cases F with
    | zero =>
      refine Agree.ite (fun _ => .same _) fun _ => ?_
      have : fieldIn r stop pos = .err E_BUFFER_NOT_FULL := by
        unfold fieldIn
        rw [Res.refuse_pos (by omega)]
        rfl
      rw [this]
      exact .same _
    | succ F =>
      refine Agree.ite (fun _ => .same _) fun _ => Agree.bind (fieldIn_agree h _ _) fun n hn _ => ?_
      rw [fieldIn_readID h hn]
      refine Agree.bind (.same _) fun x hx _ => ?_
      obtain ⟨id, len⟩ := x
      obtain ⟨b1, -, -, e1⟩ := readID_first hx
      have := announced_pos b1
      refine Agree.ite (fun _ => .same _) fun _ => Agree.bind (fieldIn_agree h _ _) fun m hm _ => ?_
      rw [fieldIn_readUInt h hm]
      refine Agree.bind (.same _) fun x _ _ => ?_
      obtain ⟨size, len2⟩ := x
      refine Agree.bind (.same _) fun _ _ _ => Agree.bind (.same _) fun _ _ _ =>
        Agree.ite (fun _ => ih _ _ _ (by omega) (by omega)) fun _ => Agree.bind (.same _) fun _ _ _ =>
        Agree.ite (fun _ => Agree.bind (Agree.wait waits_full (by omega)) fun _ hs _ => ?_) fun _ => Agree.ite (fun _ => .same _) fun _ =>
        ih _ _ _ (by omega) (by omega)
      rw [Res.refuse_eq_ok] at hs
      rw [unserializeUInt_ext h (p := pos + len + len2) (n := size) (by omega)]
      exact Agree.bind (.same _) fun t _ _ => Agree.bind (.same _) fun _ _ _ => ih _ _ _ (by omega) (by omega)

theorem ReadCluster.load_agree (h : r.Ext R) (c : ReadCluster) : Agree (c.load r) (c.load R) := by
  have hl := h.len
  have h1 := h.less
  have h2 := h.sane
  unfold ReadCluster.load
  refine Agree.ite (fun _ => .same _) fun _ => Agree.bind (.same _) fun _ _ _ => Agree.bind (Agree.of_eq ?_) fun _ _ _ => ?_
  · rw [h.total]
    have : (r.total ≥ 0 ∧ ((r.data.length : Int) > r.total ∨ (c.pos : Int) > r.total)) ↔
        (r.total ≥ 0 ∧ ((R.data.length : Int) > r.total ∨ (c.pos : Int) > r.total)) := by
      rw [h.total] at h2
      omega
    simp only [this]
  refine Agree.bind (fieldIn_agree h _ _) fun n hn _ => ?_
  rw [fieldIn_readID h hn]
  refine Agree.bind (.same _) fun x _ _ => ?_
  obtain ⟨id, len⟩ := x
  refine Agree.bind (.same _) fun _ _ _ => Agree.bind (fieldIn_agree h _ _) fun m hm _ => ?_
  rw [fieldIn_readUInt h hm]
  refine Agree.bind (.same _) fun x _ _ => ?_
  obtain ⟨size, len2⟩ := x
  exact Agree.bind (.same _) fun _ _ _ => Agree.bind (clusterLoadLoop_agree h _ _ _ _ _ (by omega) (by omega)) fun _ _ _ => .same _

theorem clusterChild_agree (h : r.Ext R) (c : ReadCluster) (id pos size : Nat) :
    Agree (clusterChild r c id pos size) (clusterChild R c id pos size) := by
  have hl := h.len
  have hblock : Agree (if id = 0xA0 then do
        let e ← parseBlockGroup r size pos
        .ok (some (.block (c.add e)))
      else if id = 0xA3 then do
        let e ← parseSimpleBlock r size pos
        .ok (some (.block (c.add e)))
      else .ok none : Res (Option ParseEnd))
      (if id = 0xA0 then do
        let e ← parseBlockGroup R size pos
        .ok (some (.block (c.add e)))
      else if id = 0xA3 then do
        let e ← parseSimpleBlock R size pos
        .ok (some (.block (c.add e)))
      else .ok none : Res (Option ParseEnd)) :=
    Agree.ite (fun _ => Agree.bind (parseBlockGroup_agree h _ _) fun _ _ _ => .same _) fun _ =>
      Agree.ite (fun _ => Agree.bind (parseSimpleBlock_agree h _ _) fun _ _ _ => .same _) fun _ => .same _
  unfold clusterChild
  simp only
  cases c.stop with
  | some s => exact Agree.ite (fun _ => .same _) fun _ => hblock
  | none =>
    simp only
    rw [h.total]
    refine Agree.ite (fun _ => .same _) fun _ => ?_
    by_cases hp : pos + size > r.data.length
    · rw [if_pos hp]; exact .waits waits_full _
    · have hP : ¬ pos + size > R.data.length := by omega
      rw [if_neg hp, if_neg hP]; exact hblock

theorem clusterParseLoop_agree (h : r.Ext R) (c : ReadCluster) : ∀ (f F pos : Nat), r.data.length + 1 ≤ f + pos →
    R.data.length + 1 ≤ F + pos → Agree (clusterParseLoop r c f pos) (clusterParseLoop R c F pos) := by
  intro f
  induction f with
  | zero =>
    intro F pos hf hF
    unfold clusterParseLoop
    rw [h.total]
    cases F with
    | zero => exact .same _
    | succ F => exact Agree.ite (fun _ => .same _) fun _ => Agree.ite (fun _ => .same _) fun _ => .waits waits_full _
  | succ f ih =>
    intro F pos hf hF
    have hl := h.len
    unfold clusterParseLoop
    rw [h.total]
    cases F with
    | zero =>
      refine Agree.ite (fun _ => .same _) fun _ => Agree.ite (fun _ => .same _) fun _ => ?_
      have : fieldIn r c.stop pos = .err E_BUFFER_NOT_FULL := by
        unfold fieldIn
        rw [Res.refuse_pos (by omega)]
        rfl
      rw [this]
      exact .same _
    | succ F =>
      refine Agree.ite (fun _ => .same _) fun _ => Agree.ite (fun _ => .same _) fun _ =>
        Agree.bind (fieldIn_agree h _ _) fun n hn _ => ?_
      rw [fieldIn_readID h hn]
      refine Agree.bind (.same _) fun x hx _ => ?_
      obtain ⟨id, len⟩ := x
      rw [Res.orErr_eq_ok] at hx
      obtain ⟨b1, -, -, e1⟩ := readID_first hx
      have := announced_pos b1
      refine Agree.ite (fun _ => .same _) fun _ => Agree.bind (fieldIn_agree h _ _) fun m hm _ => ?_
      rw [fieldIn_readUInt h hm]
      refine Agree.bind (.same _) fun x _ _ => ?_
      obtain ⟨size, len2⟩ := x
      refine Agree.bind (.same _) fun _ _ _ => Agree.bind (.same _) fun _ _ _ =>
        Agree.ite (fun _ => ih _ _ (by omega) (by omega)) fun _ => Agree.bind (clusterChild_agree h _ _ _ _) fun y _ _ => ?_
      cases y with
      | some e => exact .same _
      | none => exact ih _ _ (by omega) (by omega)

theorem ReadCluster.parse_agree (h : r.Ext R) (c : ReadCluster) : Agree (c.parse r) (c.parse R) := by
  have hl := h.len
  have h1 := h.less
  have h2 := h.sane
  unfold ReadCluster.parse
  refine Agree.bind (c.load_agree h) fun c _ _ => Agree.bind (.same _) fun _ _ _ => Agree.ite (fun _ => .same _) fun _ =>
    Agree.bind (Agree.of_eq ?_) fun _ _ _ => Agree.bind (clusterParseLoop_agree h c _ _ _ (by omega) (by omega)) fun x _ _ => ?_
  · rw [Res.refuse_neg (by omega), Res.refuse_neg (by omega)]
  · cases x with
    | block c' => exact .same _
    | none c' pos =>
      simp only
      unfold parseFinish
      rw [h.total]
      exact .same _

end Verif.Par

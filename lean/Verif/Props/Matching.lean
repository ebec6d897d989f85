/-
C90: `Match`.
-/
import Verif.Lemmas.ParserPrims
import Verif.Model.ParserMatch

namespace Verif.Props
open Verif Verif.Par

private theorem readID_cases (r : Rdr) (pos : Int) : (∃ c, readID r pos = .err c) ∨
    ∃ id len : Nat, readID r pos = .ok (id, len) ∧ 0 ≤ pos ∧ pos + len ≤ r.data.length ∧ 1 ≤ len ∧ id = beVal (slice r.data pos.toNat len) := by
  by_cases hp : pos < 0
  · left; unfold readID; rw [if_pos hp]; exact ⟨_, rfl⟩
  · obtain ⟨p, rfl⟩ : ∃ p : Nat, pos = p := ⟨pos.toNat, by omega⟩
    cases hb : r.data[p]? with
    | none =>
      left
      unfold readID Rdr.byte
      rw [if_neg hp]
      simp only [Int.toNat_natCast, hb]
      split <;> exact ⟨_, rfl⟩
    | some b =>
      cases hk : idBitLoop b 0 4 with
      | none =>
        left
        unfold readID Rdr.byte
        rw [if_neg hp]
        simp only [Int.toNat_natCast, hb, hk]
        split <;> exact ⟨_, rfl⟩
      | some k =>
        rw [readID_eq hb hk]
        by_cases hl : p + (k + 1) ≤ r.data.length
        · rw [if_pos hl]
          exact .inr ⟨_, _, rfl, by omega, by omega, by omega, rfl⟩
        · rw [if_neg hl]
          exact .inl ⟨_, rfl⟩

private theorem readUInt_end {r : Rdr} {pos : Int} (h : (r.data.length : Int) ≤ pos) : ∃ c, readUInt r pos = .err c := by
  unfold readUInt Rdr.byte
  rw [if_neg (by omega), List.getElem?_eq_none (by omega)]
  simp only
  split <;> exact ⟨_, rfl⟩

/-- The ID that ends at the end of what is available: there is one at `pos`, and it is the expected one. -/
def IdAtEnd (r : Rdr) (pos : Int) (expected : Nat) : Prop :=
  0 ≤ pos ∧ pos < r.data.length ∧ beVal (r.data.drop pos.toNat) = expected

private theorem at_end {r : Rdr} {pos : Int} {len : Nat} (h0 : 0 ≤ pos) (h1 : pos + len ≤ r.data.length) (h2 : ¬ (r.data.length : Int) - pos > len)
    (h3 : 1 ≤ len) : pos < r.data.length ∧ slice r.data pos.toNat len = r.data.drop pos.toNat ∧ pos + len = r.data.length := by
  refine ⟨by omega, ?_, by omega⟩
  unfold slice
  exact List.take_of_length_le (by rw [List.length_drop]; omega)

/-- **C90, numbers.**  `Match` answers no, for every reader that cannot read more than it says is available, every place and every ID.
It has no undefined behaviour, sets no number, and leaves the position where it was, or moves it from the expected ID to the end if there is
nothing but this ID. -/
theorem C90_number (r : Rdr) (pos : Int) (expected : Nat) :
    matchNumber r pos expected = .ok (false, pos, none) ∨
      matchNumber r pos expected = .ok (false, r.data.length, none) ∧ IdAtEnd r pos expected := by
  unfold matchNumber
  by_cases c1 : pos < 0
  · rw [if_pos c1]; exact .inl rfl
  rw [if_neg c1]
  by_cases c2 : r.total ≥ 0 ∧ (r.data.length : Int) > r.total
  · rw [if_pos c2]; exact .inl rfl
  rw [if_neg c2]
  rcases readID_cases r pos with ⟨c, e⟩ | ⟨id, len, e, h0, h1, h2, h3⟩
  · rw [e]; exact .inl rfl
  · rw [e]
    simp only
    by_cases c3 : (r.data.length : Int) - pos > len
    · rw [if_pos c3]; exact .inl rfl
    rw [if_neg c3]
    by_cases c4 : id ≠ expected
    · rw [if_pos c4]; exact .inl rfl
    rw [if_neg c4]
    obtain ⟨k1, k2, k3⟩ := at_end h0 h1 c3 h2
    obtain ⟨c, e2⟩ := readUInt_end (r := r) (pos := pos + len) (by omega)
    rw [e2, k3]
    exact .inr ⟨rfl, h0, k1, by rw [← k2, ← h3]; omega⟩

/-- **C90, data.**  The same for the other `Match`: it never hands out a buffer. -/
theorem C90_data (r : Rdr) (pos : Int) (expected : Nat) :
    matchData r pos expected = .ok (false, pos, none) ∨
      matchData r pos expected = .ok (false, r.data.length, none) ∧ IdAtEnd r pos expected := by
  unfold matchData
  by_cases c1 : pos < 0
  · rw [if_pos c1]; exact .inl rfl
  rw [if_neg c1]
  by_cases c2 : r.total ≥ 0 ∧ (r.data.length : Int) > r.total
  · rw [if_pos c2]; exact .inl rfl
  rw [if_neg c2]
  rcases readID_cases r pos with ⟨c, e⟩ | ⟨id, len, e, h0, h1, h2, h3⟩
  · rw [e]; exact .inl rfl
  · rw [e]
    simp only
    by_cases c3 : (r.data.length : Int) - pos > len
    · rw [if_pos c3]; exact .inl rfl
    rw [if_neg c3]
    by_cases c4 : id ≠ expected
    · rw [if_pos c4]; exact .inl rfl
    rw [if_neg c4]
    obtain ⟨k1, k2, k3⟩ := at_end h0 h1 c3 h2
    obtain ⟨c, e2⟩ := readUInt_end (r := r) (pos := pos + len) (by omega)
    rw [e2, k3]
    exact .inr ⟨rfl, h0, k1, by rw [← k2, ← h3]; omega⟩

/-- **So an element is not found where it is**, whatever its ID and value. -/
theorem C90_never_found (r : Rdr) (pos : Int) (expected : Nat) :
    (∀ pos' v, matchNumber r pos expected ≠ .ok (true, pos', v)) ∧ ∀ pos' b, matchData r pos expected ≠ .ok (true, pos', b) := by
  refine ⟨fun p v h => ?_, fun p v h => ?_⟩
  · rcases C90_number r pos expected with e | ⟨e, -⟩ <;> rw [e] at h <;> cases h
  · rcases C90_data r pos expected with e | ⟨e, -⟩ <;> rw [e] at h <;> cases h

/-! ### Examples -/

/-- An element with ID `42F7` (`EBMLReadVersion`) and value 1, on which every other reader of mkvparser would agree. -/
example : matchNumber { data := [0x42, 0xF7, 0x81, 1], total := 4 } 0 0x42F7 = .ok (false, 0, none) ∧
    readID { data := [0x42, 0xF7, 0x81, 1], total := 4 } 0 = .ok (0x42F7, 2) ∧
    readUInt { data := [0x42, 0xF7, 0x81, 1], total := 4 } 2 = .ok (1, 1) ∧
    unserializeUInt { data := [0x42, 0xF7, 0x81, 1], total := 4 } 3 1 = .ok 1 := by decide +kernel

/-- The second case: nothing but the ID. -/
example : matchNumber { data := [7, 0x42, 0xF7], total := 10 } 1 0x42F7 = .ok (false, 3, none) ∧
    matchData { data := [7, 0x42, 0xF7], total := 10 } 1 0x42F7 = .ok (false, 3, none) ∧
    IdAtEnd { data := [7, 0x42, 0xF7], total := 10 } 1 0x42F7 := by
  refine ⟨by decide +kernel, by decide +kernel, by decide, by decide, by decide⟩

end Verif.Props

/-
Properties of the VPx codec private parser: C46.
-/
import Verif.Lemmas.CodecPrivate

namespace Verif.Props
open Verif Spec.CodecPrivate Vp9

/-- Nothing outside the data is read, whatever it contains. -/
theorem C46_in_bounds (data : Bytes) : parsePrivate data data.length ≠ .ub := by
  rw [parsePrivate_eq]
  split
  · exact (nomatch ·)
  · cases recAll {} (records data) <;> exact (nomatch ·)

/-- The features reported are the stored ones, a missing one being reported as missing, and
all have legal values. -/
theorem C46_features (data : Bytes) (f : Features) (h : parsePrivate data data.length = .ok f) :
    f.profile = stored 1 (records data) ∧ f.level = stored 2 (records data) ∧
    f.bitDepth = stored 3 (records data) ∧ f.chroma = stored 4 (records data) ∧
    (∀ v, f.profile = some v → LegalValue 1 v) ∧ (∀ v, f.level = some v → LegalValue 2 v) ∧
    (∀ v, f.bitDepth = some v → LegalValue 3 v) ∧ (∀ v, f.chroma = some v → LegalValue 4 v) := by
  rw [parsePrivate_eq] at h
  split at h; · contradiction
  cases hr : recAll {} (records data) with
  | none => rw [hr] at h; exact nomatch h
  | some g =>
    rw [hr] at h
    obtain rfl := Res.ok.inj h
    obtain ⟨h1, -, h3⟩ := recAll_some _ _ _ hr
    have h3 := h3 (fun id v hv => by
      unfold Features.get at hv
      repeat (first | (split at hv; · contradiction) | contradiction))
    refine ⟨?_, ?_, ?_, ?_, fun v hv => h3 1 v hv, fun v hv => h3 2 v hv, fun v hv => h3 3 v hv,
      fun v hv => h3 4 v hv⟩
    · simpa [Features.get] using h1 1 (by simp)
    · simpa [Features.get] using h1 2 (by simp)
    · simpa [Features.get] using h1 3 (by simp)
    · simpa [Features.get] using h1 4 (by simp)

/-- Data made of legal records that do not contradict each other is accepted. -/
theorem C46_legal_accepted (data : Bytes) (hne : records data ≠ [])
    (hl : ∀ r ∈ records data, r.Legal) (hc : Consistent (records data)) :
    ∃ f, parsePrivate data data.length = .ok f := by
  rw [parsePrivate_eq, if_neg hne]
  obtain ⟨f, hf⟩ := recAll_of_legal _ {} hl hc
    (fun r _ => Or.inl (by unfold Features.get; repeat (first | rfl | split)))
  exact ⟨f, by rw [hf]; rfl⟩

/-- Conversely accepted data has at least one record, every record is one byte long and has a
known id, and, if it is not a level, is legal and does not contradict another record.  Missing:
the same for levels, which does not hold (`C46_illegal_level_accepted`). -/
theorem C46_accepted_partial (data : Bytes) (f : Features)
    (h : parsePrivate data data.length = .ok f) :
    records data ≠ [] ∧
    (∀ r ∈ records data, r.len = 1 ∧ r.id ∈ [1, 2, 3, 4]) ∧
    (∀ r ∈ records data, r.id ≠ 2 → r.Legal) ∧
    (∀ r ∈ records data, ∀ q ∈ records data, r.Legal → q.Legal → r.id = q.id →
      r.value = q.value) := by
  rw [parsePrivate_eq] at h
  split at h; · contradiction
  rename_i hne
  cases hr : recAll {} (records data) with
  | none => rw [hr] at h; exact nomatch h
  | some g =>
    rw [hr] at h
    obtain rfl := Res.ok.inj h
    obtain ⟨-, h2, -⟩ := recAll_some _ _ _ hr
    refine ⟨hne, fun r hm => ⟨(h2 r hm).1, by have := (h2 r hm).2.1; simpa using this⟩, ?_, ?_⟩
    · intro r hm hi
      rcases (h2 r hm).2.2 with h | ⟨h, -⟩
      · exact h.1
      · exact absurd h hi
    · intro r hm q hq hrl hql he
      rcases (h2 r hm).2.2 with h | ⟨h, hn⟩
      · rcases (h2 q hq).2.2 with h' | ⟨h', hn'⟩
        · have := h.2; rw [he, h'.2] at this; exact (Option.some.inj this).symm
        · have := hql.2; rw [h'] at this; exact absurd this hn'
      · have := hrl.2; rw [h] at this; exact absurd this hn

/-- An illegal level after a legal one is not noticed. -/
theorem C46_illegal_level_accepted :
    ∃ data : Bytes, parsePrivate data data.length = .ok { level := some 10 } ∧
      ∃ r ∈ records data, ¬ r.Legal := by
  refine ⟨[2, 1, 10, 2, 1, 99], by decide +kernel, ⟨2, 1, 99⟩, by decide +kernel, ?_⟩
  rintro ⟨-, h⟩
  simp [LegalValue] at h

/-- Data shorter than a record is refused, also when nothing is readable. -/
theorem C46_short_refused (data : Bytes) (length : Int) (h : length < 3) :
    parsePrivate data length = .err 0 := by
  unfold parsePrivate; rw [if_pos h]

/-- Two features followed by a stray byte. -/
example : parsePrivate [1, 1, 2, 3, 1, 10, 7] 7 =
    .ok { profile := some 2, bitDepth := some 10 } := by decide +kernel

end Verif.Props

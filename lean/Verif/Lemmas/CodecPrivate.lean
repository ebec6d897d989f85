/-
The record loop of the codec private parser as a fold over records.
-/
import Verif.Model.CodecPrivate
import Verif.Spec.CodecPrivate

namespace Verif.Vp9
open Verif Spec.CodecPrivate

/-- One record. -/
def recStep (f : Features) (r : Record) : Option Features :=
  if r.len ≠ 1 then none else feature f r.id r.value

def recAll (f : Features) : List Record → Option Features
  | [] => some f
  | r :: rs => match recStep f r with
    | none => none
    | some f' => recAll f' rs

def ofOption : Option Features → Res Features
  | none => .err 0
  | some f => .ok f

theorem feature_none_of_id {f : Features} {id v : Nat}
    (h : ¬ (id = 1 ∨ id = 2 ∨ id = 3 ∨ id = 4)) : feature f id v = none := by
  unfold feature
  rw [if_neg (by omega), if_neg (by omega), if_neg (by omega), if_neg (by omega)]

theorem privateLoop_eq (n : Nat) : ∀ (pre : Bytes) (a b c : UInt8) (rest : Bytes) (f : Features),
    rest.length ≤ n →
    privateLoop (pre ++ a :: b :: c :: rest) (pre.length + 3 + rest.length) pre.length f =
      ofOption (recAll f (records (a :: b :: c :: rest))) := by
  induction n with
  | zero =>
    intro pre a b c rest f hn
    have hr : rest = [] := List.length_eq_zero_iff.mp (by omega)
    subst hr
    rw [privateLoop]
    simp only [List.getElem?_append_right (Nat.le_refl _),
      List.getElem?_append_right (Nat.le_add_right _ _), Nat.sub_self, Nat.add_sub_cancel_left]
    simp only [List.getElem?_cons_zero, List.getElem?_cons_succ, records, recAll, recStep]
    by_cases h1 : b.toNat = 1
    · by_cases h2 : a.toNat = 1 ∨ a.toNat = 2 ∨ a.toNat = 3 ∨ a.toNat = 4
      · simp only [if_neg (show ¬ b.toNat ≠ 1 by simp [h1]), if_pos h2]
        cases feature f a.toNat c.toNat with
        | none => rfl
        | some g =>
          simp only [List.length_nil]
          rw [if_neg (by omega)]
          simp [ofOption]
      · simp only [if_neg (show ¬ b.toNat ≠ 1 by simp [h1]), if_neg h2, feature_none_of_id h2]
        rfl
    · rw [if_pos h1, if_pos h1]; rfl
  | succ n ih =>
    intro pre a b c rest f hn
    rw [privateLoop]
    simp only [List.getElem?_append_right (Nat.le_refl _),
      List.getElem?_append_right (Nat.le_add_right _ _), Nat.sub_self, Nat.add_sub_cancel_left]
    simp only [List.getElem?_cons_zero, List.getElem?_cons_succ, records, recAll, recStep]
    by_cases h1 : b.toNat = 1
    · by_cases h2 : a.toNat = 1 ∨ a.toNat = 2 ∨ a.toNat = 3 ∨ a.toNat = 4
      · simp only [if_neg (show ¬ b.toNat ≠ 1 by simp [h1]), if_pos h2]
        cases feature f a.toNat c.toNat with
        | none => rfl
        | some g =>
          match rest, hn with
          | [], _ =>
            simp only [List.length_nil]
            rw [if_neg (by omega)]
            simp [records, recAll, ofOption]
          | [_], _ => simp [records, recAll, ofOption]
          | [_, _], _ => simp [records, recAll, ofOption]
          | x :: y :: z :: t, hn =>
            have := ih (pre ++ [a, b, c]) x y z t g (by simp at hn; omega)
            simp only [List.length_append, List.length_cons, List.length_nil, List.append_assoc,
              List.cons_append, List.nil_append] at this
            simp only [List.length_cons]
            rw [if_pos (by omega)]
            rw [show pre.length + 3 + (t.length + 1 + 1 + 1) =
              pre.length + (0 + 1 + 1 + 1) + 3 + t.length by omega]
            exact this
      · simp only [if_neg (show ¬ b.toNat ≠ 1 by simp [h1]), if_neg h2, feature_none_of_id h2]
        rfl
    · rw [if_pos h1, if_pos h1]; rfl

theorem parsePrivate_eq (data : Bytes) :
    parsePrivate data data.length =
      if records data = [] then .err 0 else ofOption (recAll {} (records data)) := by
  unfold parsePrivate
  match data with
  | [] => rfl
  | [_] => rfl
  | [_, _] => rfl
  | a :: b :: c :: rest =>
    rw [if_neg (by simp only [List.length_cons]; omega), if_neg (by simp [records])]
    have := privateLoop_eq rest.length [] a b c rest {} (Nat.le_refl _)
    simp only [List.length_nil, List.nil_append, Nat.zero_add] at this
    rw [← this]
    congr 1
    simp only [List.length_cons]; omega

/-- The field of a feature. -/
def Features.get (f : Features) (id : Nat) : Option Nat :=
  if id = 1 then f.profile else if id = 2 then f.level else if id = 3 then f.bitDepth
  else if id = 4 then f.chroma else none

/-- What one record does when it is accepted. -/
theorem recStep_some {f f' : Features} {r : Record} (h : recStep f r = some f') :
    r.len = 1 ∧ (r.id = 1 ∨ r.id = 2 ∨ r.id = 3 ∨ r.id = 4) ∧
    (∀ id, id ≠ r.id → f'.get id = f.get id) ∧
    ((LegalValue r.id r.value ∧ (f.get r.id = none ∨ f.get r.id = some r.value) ∧
        f'.get r.id = some r.value) ∨
     (r.id = 2 ∧ ¬ LegalValue 2 r.value ∧ f.get 2 ≠ none ∧ f' = f)) := by
  unfold recStep at h
  by_cases hl : r.len = 1
  · rw [if_neg (by simp [hl])] at h
    refine ⟨hl, ?_⟩
    unfold feature at h
    by_cases h1 : r.id = 1
    · rw [if_pos h1] at h
      split at h; · contradiction
      split at h; · contradiction
      rename_i hv hc
      obtain rfl := Option.some.inj h
      refine ⟨Or.inl h1, ?_, Or.inl ⟨Or.inl ⟨h1, by omega⟩, ?_, ?_⟩⟩
      · intro id hid; rw [h1] at hid; unfold Features.get; rw [if_neg hid, if_neg hid]
      · rw [h1]; unfold Features.get; rw [if_pos rfl]
        cases hp : f.profile with
        | none => exact Or.inl rfl
        | some p => simp [conflicts, hp] at hc; simp [hc]
      · rw [h1]; rfl
    · rw [if_neg h1] at h
      by_cases h2 : r.id = 2
      · rw [if_pos h2] at h
        split at h
        · rename_i hv
          split at h; · contradiction
          rename_i hc
          obtain rfl := Option.some.inj h
          refine ⟨Or.inr (Or.inl h2), ?_, Or.inl ⟨Or.inr (Or.inl ⟨h2, hv⟩), ?_, ?_⟩⟩
          · intro id hid; rw [h2] at hid; simp only [Features.get, if_neg hid]
          · rw [h2]; show f.level = none ∨ f.level = _
            cases hp : f.level with
            | none => exact Or.inl rfl
            | some p => simp [conflicts, hp] at hc; simp [hc]
          · rw [h2]; rfl
        · rename_i hv
          split at h; · contradiction
          rename_i hn
          obtain rfl := Option.some.inj h
          refine ⟨Or.inr (Or.inl h2), fun _ _ => rfl, Or.inr ⟨h2, ?_, hn, rfl⟩⟩
          rintro (⟨h, -⟩ | ⟨-, h⟩ | ⟨h, -⟩ | ⟨h, -⟩)
          · omega
          · exact hv h
          · omega
          · omega
      · rw [if_neg h2] at h
        by_cases h3 : r.id = 3
        · rw [if_pos h3] at h
          split at h; · contradiction
          split at h; · contradiction
          rename_i hv hc
          obtain rfl := Option.some.inj h
          refine ⟨Or.inr (Or.inr (Or.inl h3)), ?_,
            Or.inl ⟨Or.inr (Or.inr (Or.inl ⟨h3, ?_⟩)), ?_, ?_⟩⟩
          · intro id hid; rw [h3] at hid; simp only [Features.get, if_neg hid]
          · simp; omega
          · rw [h3]; show f.bitDepth = none ∨ f.bitDepth = _
            cases hp : f.bitDepth with
            | none => exact Or.inl rfl
            | some p => simp [conflicts, hp] at hc; simp [hc]
          · rw [h3]; rfl
        · rw [if_neg h3] at h
          by_cases h4 : r.id = 4
          · rw [if_pos h4] at h
            split at h; · contradiction
            split at h; · contradiction
            rename_i hv hc
            obtain rfl := Option.some.inj h
            refine ⟨Or.inr (Or.inr (Or.inr h4)), ?_,
              Or.inl ⟨Or.inr (Or.inr (Or.inr ⟨h4, by omega⟩)), ?_, ?_⟩⟩
            · intro id hid; rw [h4] at hid; simp only [Features.get, if_neg hid]
            · rw [h4]; show f.chroma = none ∨ f.chroma = _
              cases hp : f.chroma with
              | none => exact Or.inl rfl
              | some p => simp [conflicts, hp] at hc; simp [hc]
            · rw [h4]; rfl
          · rw [if_neg h4] at h; contradiction
  · rw [if_pos hl] at h; contradiction

theorem stored_cons (id : Nat) (r : Record) (rs : List Record) :
    stored id (r :: rs) = if r.id = id then some r.value else stored id rs := by
  unfold stored
  rw [List.find?_cons]
  by_cases h : r.id = id <;> simp [h]

/-- What the fold reports. -/
theorem recAll_some (rs : List Record) : ∀ (f f' : Features), recAll f rs = some f' →
    (∀ id, id ∈ [1, 2, 3, 4] → f'.get id = (f.get id).or (stored id rs)) ∧
    (∀ r ∈ rs, r.len = 1 ∧ (r.id = 1 ∨ r.id = 2 ∨ r.id = 3 ∨ r.id = 4) ∧
      ((r.Legal ∧ f'.get r.id = some r.value) ∨
        (r.id = 2 ∧ ¬ LegalValue 2 r.value))) ∧
    ((∀ id v, f.get id = some v → LegalValue id v) →
      ∀ id v, f'.get id = some v → LegalValue id v) := by
  induction rs with
  | nil =>
    intro f f' h
    obtain rfl := Option.some.inj h
    exact ⟨fun id _ => by simp [stored], fun r hr => (nomatch hr), fun h => h⟩
  | cons r rs ih =>
    intro f f' h
    unfold recAll at h
    split at h; · contradiction
    rename_i g hg
    obtain ⟨hl, hid, hother, hcase⟩ := recStep_some hg
    obtain ⟨i1, i2, i3⟩ := ih g f' h
    have hmem : r.id ∈ [1, 2, 3, 4] := by simp; omega
    refine ⟨?_, ?_, ?_⟩
    · intro id hi
      rw [i1 id hi, stored_cons]
      by_cases he : r.id = id
      · subst he
        rw [if_pos rfl]
        rcases hcase with ⟨-, hn, hs⟩ | ⟨h2, -, hn, rfl⟩
        · rw [hs]; rcases hn with hn | hn <;> simp [hn]
        · rw [h2]
          obtain ⟨v, hv⟩ := Option.ne_none_iff_exists'.mp hn
          simp [hv]
      · rw [if_neg he, hother id (fun h => he h.symm)]
    · intro q hq
      rcases List.mem_cons.mp hq with rfl | hq
      · refine ⟨hl, hid, ?_⟩
        rcases hcase with ⟨hlegal, -, hs⟩ | ⟨h2, hn, -, -⟩
        · left
          exact ⟨⟨hl, hlegal⟩, by rw [i1 _ hmem, hs]; rfl⟩
        · exact Or.inr ⟨h2, hn⟩
      · exact i2 q hq
    · intro hf
      refine i3 ?_
      intro id v hv
      rcases hcase with ⟨hlegal, -, hs⟩ | ⟨-, -, -, rfl⟩
      · by_cases he : id = r.id
        · subst he; rw [hs] at hv; obtain rfl := Option.some.inj hv; exact hlegal
        · rw [hother id he] at hv; exact hf id v hv
      · exact hf id v hv

/-- A legal record that agrees with what is known is accepted. -/
theorem recStep_of_legal {f : Features} {r : Record} (hr : r.Legal)
    (hf : f.get r.id = none ∨ f.get r.id = some r.value) : recStep f r ≠ none := by
  obtain ⟨hl, hv⟩ := hr
  unfold recStep
  rw [if_neg (by simp [hl])]
  unfold feature
  rcases hv with ⟨h, hv⟩ | ⟨h, hv⟩ | ⟨h, hv⟩ | ⟨h, hv⟩
  · rw [if_pos h, if_neg (by omega)]
    rw [h] at hf
    rw [if_neg ?_]; · simp
    change f.profile = none ∨ f.profile = _ at hf
    rcases hf with hf | hf <;> simp [conflicts, hf]
  · rw [if_neg (by omega), if_pos h]
    rw [h] at hf
    rw [if_pos (show r.value ∈ kLevels from hv), if_neg ?_]; · simp
    change f.level = none ∨ f.level = _ at hf
    rcases hf with hf | hf <;> simp [conflicts, hf]
  · rw [if_neg (by omega), if_neg (by omega), if_pos h]
    rw [h] at hf
    rw [if_neg (by simp at hv; omega), if_neg ?_]; · simp
    change f.bitDepth = none ∨ f.bitDepth = _ at hf
    rcases hf with hf | hf <;> simp [conflicts, hf]
  · rw [if_neg (by omega), if_neg (by omega), if_neg (by omega), if_pos h]
    rw [h] at hf
    rw [if_neg (by omega), if_neg ?_]; · simp
    change f.chroma = none ∨ f.chroma = _ at hf
    rcases hf with hf | hf <;> simp [conflicts, hf]

theorem recAll_of_legal (rs : List Record) : ∀ f : Features,
    (∀ r ∈ rs, r.Legal) → Consistent rs →
    (∀ r ∈ rs, f.get r.id = none ∨ f.get r.id = some r.value) → ∃ f', recAll f rs = some f' := by
  induction rs with
  | nil => intro f _ _ _; exact ⟨f, rfl⟩
  | cons r rs ih =>
    intro f hl hc hf
    unfold recAll
    have h1 := recStep_of_legal (hl r List.mem_cons_self) (hf r List.mem_cons_self)
    obtain ⟨g, hg⟩ := Option.ne_none_iff_exists'.mp h1
    rw [hg]
    obtain ⟨-, -, hother, hcase⟩ := recStep_some hg
    refine ih g (fun q hq => hl q (List.mem_cons_of_mem _ hq))
      (fun q hq p hp => hc q (List.mem_cons_of_mem _ hq) p (List.mem_cons_of_mem _ hp)) ?_
    intro q hq
    by_cases he : q.id = r.id
    · rw [he, hc q (List.mem_cons_of_mem _ hq) r List.mem_cons_self he]
      rcases hcase with ⟨-, -, hs⟩ | ⟨h2, hn, -, -⟩
      · exact Or.inr hs
      · exact absurd (by have := (hl r List.mem_cons_self).2; rwa [h2] at this) hn
    · rw [hother q.id he]
      exact hf q (List.mem_cons_of_mem _ hq)

end Verif.Vp9

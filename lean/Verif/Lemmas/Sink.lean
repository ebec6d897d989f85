/-
Compositional description of output routines.
-/
import Verif.Model.Sink

namespace Verif

/-- The next `k` write calls all succeed. -/
def Sink.okFor (s : Sink) (k : Nat) : Prop := ∀ i, i < k → s.plan (s.calls + i) = none

/-- The sink after `k` successful calls that stored `bs` at the end of the file. -/
def Sink.app (s : Sink) (bs : Bytes) (k : Nat) : Sink :=
  { s with data := s.data ++ bs, pos := s.pos + bs.length, calls := s.calls + k }

/-- The write cursor is at the end of the file (sequential writing). -/
def Sink.AtEnd (s : Sink) : Prop := s.pos = s.data.length

theorem Sink.app_atEnd {s : Sink} (h : s.AtEnd) (bs : Bytes) (k : Nat) : (s.app bs k).AtEnd := by
  simp [Sink.AtEnd, Sink.app] at *; omega

@[simp] theorem Sink.app_app (s : Sink) (a b : Bytes) (k l : Nat) :
    (s.app a k).app b l = s.app (a ++ b) (k + l) := by
  simp [Sink.app, Nat.add_assoc]

theorem overwrite_end (d bs : Bytes) : overwrite d d.length bs = d ++ bs := by
  simp [overwrite]

/-- What a failed routine leaves behind: a prefix of its encoding, the same plan, and a
failed call among the calls it made. -/
structure Sink.Broken (s s' : Sink) (bs : Bytes) : Prop where
  pre : ∃ p, p <+: bs ∧ s'.data = s.data ++ p
  atEnd : s'.AtEnd
  plan : s'.plan = s.plan
  cause : ∃ i, s.calls ≤ i ∧ i < s'.calls ∧ s.plan i ≠ none

/-- The write cursor is inside the file or at its end. -/
def Sink.Within (s : Sink) : Prop := s.pos ≤ s.data.length

theorem Sink.AtEnd.within {s : Sink} (h : s.AtEnd) : s.Within := Nat.le_of_eq h

/-- The sink after `k` successful calls that stored `bs` at the cursor. -/
def Sink.put (s : Sink) (bs : Bytes) (k : Nat) : Sink :=
  { s with data := overwrite s.data s.pos bs, pos := s.pos + bs.length, calls := s.calls + k }

theorem Sink.put_eq_app {s : Sink} (h : s.AtEnd) (bs : Bytes) (k : Nat) : s.put bs k = s.app bs k := by
  unfold Sink.put Sink.app; rw [show s.pos = s.data.length from h, overwrite_end]

theorem overwrite_length {d bs : Bytes} {p : Nat} (h : p ≤ d.length) :
    p + bs.length ≤ (overwrite d p bs).length := by
  simp [overwrite]; omega

theorem Sink.put_within {s : Sink} (h : s.Within) (bs : Bytes) (k : Nat) : (s.put bs k).Within :=
  overwrite_length h

theorem overwrite_nil (d : Bytes) (p : Nat) : overwrite d p [] = d := by simp [overwrite]

theorem overwrite_overwrite {d : Bytes} {p : Nat} (h : p ≤ d.length) (a b : Bytes) :
    overwrite (overwrite d p a) (p + a.length) b = overwrite d p (a ++ b) := by
  have hl : (d.take p).length = p := by simp; omega
  unfold overwrite
  have h1 : (d.take p ++ a ++ d.drop (p + a.length)).take (p + a.length) = d.take p ++ a := by
    rw [List.take_append_of_le_length (by simp; omega), List.take_of_length_le (by simp; omega)]
  have h2 : (d.take p ++ a ++ d.drop (p + a.length)).drop (p + a.length + b.length) =
      d.drop (p + (a ++ b).length) := by
    rw [List.drop_append]
    have : (d.take p ++ a).length = p + a.length := by simp; omega
    rw [List.drop_eq_nil_of_le (by omega), this, List.nil_append, List.drop_drop]
    simp only [List.length_append]
    congr 1; omega
  rw [h1, h2]
  simp

theorem Sink.put_put {s : Sink} (h : s.Within) (a b : Bytes) (k l : Nat) :
    (s.put a k).put b l = s.put (a ++ b) (k + l) := by
  simp only [Sink.put, overwrite_overwrite h, List.length_append, Nat.add_assoc]

/-- What a failed routine leaves behind, wherever the cursor was: a prefix of its encoding at the
cursor, the same plan, and a failed call among the calls it made. -/
structure Sink.Torn (s s' : Sink) (bs : Bytes) : Prop where
  pre : ∃ p, p <+: bs ∧ s'.data = overwrite s.data s.pos p ∧ s'.pos = s.pos + p.length
  plan : s'.plan = s.plan
  cause : ∃ i, s.calls ≤ i ∧ i < s'.calls ∧ s.plan i ≠ none

theorem Sink.Torn.broken {s s' : Sink} {bs : Bytes} (h : s.Torn s' bs) (hs : s.AtEnd) :
    s.Broken s' bs := by
  obtain ⟨⟨p, h1, h2, h3⟩, h4, h5⟩ := h
  have h2' : s'.data = s.data ++ p := by
    rw [h2, show s.pos = s.data.length from hs, overwrite_end]
  refine ⟨⟨p, h1, h2'⟩, ?_, h4, h5⟩
  unfold Sink.AtEnd at *
  rw [h2', h3, hs]; simp

/-- `Emits w a bs`: `w` makes some fixed number of write calls; if they all succeed it returns
`a` having stored exactly `bs` at the cursor; if one fails it returns an error having stored only
a prefix of `bs`. -/
def Emits {α} (w : W α) (a : α) (bs : Bytes) : Prop :=
  ∃ k, ∀ s : Sink, s.Within →
    (s.okFor k → w s = (.ok a, s.put bs k)) ∧
    (¬ s.okFor k → ∃ c s', w s = (.err c, s') ∧ s.Torn s' bs)

theorem Emits.pure {α} (a : α) : Emits (pure a) a [] :=
  ⟨0, fun s _ => ⟨fun _ => by simp [Sink.put, overwrite_nil],
    fun h => absurd (fun i hi => absurd hi (by omega)) h⟩⟩

theorem Emits.write (bs : Bytes) : Emits (Sink.write bs) () bs := by
  refine ⟨1, fun s hs => ⟨fun h => ?_, fun h => ?_⟩⟩
  · have := h 0 (by omega)
    simp only [Nat.add_zero] at this
    simp only [Sink.write, this, Sink.put]
  · cases hp : s.plan s.calls with
    | none =>
      exact absurd (fun i hi => by
        have : i = 0 := by omega
        subst this; simpa using hp) h
    | some n =>
      have hrun : Sink.write bs s = (.err (-1), s.put (bs.take n) 1) := by
        simp only [Sink.write, hp, Sink.put]
      refine ⟨-1, _, hrun, ⟨⟨bs.take n, List.take_prefix _ _, rfl, rfl⟩, rfl, ?_⟩⟩
      exact ⟨s.calls, by omega, by simp [Sink.put], by simp [hp]⟩

theorem Emits.bind {α β} {w : W α} {f : α → W β} {a : α} {b : β} {xs ys : Bytes}
    (hw : Emits w a xs) (hf : Emits (f a) b ys) : Emits (w >>= f) b (xs ++ ys) := by
  obtain ⟨k, hk⟩ := hw
  obtain ⟨l, hl⟩ := hf
  refine ⟨k + l, fun s hs => ?_⟩
  by_cases h1 : s.okFor k
  · have hw := (hk s hs).1 h1
    have hs' := Sink.put_within hs xs k
    have key : (s.put xs k).okFor l ↔ s.okFor (k + l) := by
      constructor
      · intro h i hi
        by_cases hik : i < k
        · exact h1 i hik
        · have := h (i - k) (by omega)
          simp only [Sink.put] at this
          rwa [show s.calls + k + (i - k) = s.calls + i by omega] at this
      · intro h i hi
        have := h (k + i) (by omega)
        simpa [Sink.put, Nat.add_assoc] using this
    rw [← key]
    constructor
    · intro h
      rw [W.bind_run, hw]
      simp only
      rw [(hl _ hs').1 h, Sink.put_put hs]
    · intro h
      obtain ⟨c, s', he, hb⟩ := (hl _ hs').2 h
      refine ⟨c, s', ?_, ?_⟩
      · rw [W.bind_run, hw]; exact he
      · obtain ⟨p, hp, hd, hpos⟩ := hb.pre
        obtain ⟨i, hi1, hi2, hi3⟩ := hb.cause
        refine ⟨⟨xs ++ p, ?_, ?_, ?_⟩, hb.plan, ⟨i, ?_, hi2, hi3⟩⟩
        · obtain ⟨t, rfl⟩ := hp
          exact ⟨t, by simp⟩
        · rw [hd]; simp only [Sink.put, overwrite_overwrite hs]
        · rw [hpos]; simp [Sink.put, Nat.add_assoc]
        · simp only [Sink.put] at hi1; omega
  · have h2 : ¬ s.okFor (k + l) := fun h => h1 fun i hi => h i (by omega)
    refine ⟨fun h => absurd h h2, fun _ => ?_⟩
    obtain ⟨c, s', he, hb⟩ := (hk s hs).2 h1
    refine ⟨c, s', ?_, ?_⟩
    · rw [W.bind_run, he]
    · obtain ⟨p, hp, hd⟩ := hb.pre
      exact ⟨⟨p, hp.trans (List.prefix_append _ _), hd⟩, hb.plan, hb.cause⟩

theorem Emits.congr {α} {w : W α} {a : α} {xs ys : Bytes} (h : Emits w a xs) (e : xs = ys) :
    Emits w a ys := e ▸ h

/-- Consequences of `Emits` in the form used by the property statements. -/
theorem Emits.success {α} {w : W α} {a : α} {bs : Bytes} (h : Emits w a bs) {s s' : Sink} {b : α}
    (hs : s.AtEnd) (hr : w s = (.ok b, s')) :
    b = a ∧ s'.data = s.data ++ bs ∧ s'.AtEnd ∧ s'.plan = s.plan ∧
      ∀ i, s.calls ≤ i → i < s'.calls → s.plan i = none := by
  obtain ⟨k, hk⟩ := h
  by_cases h1 : s.okFor k
  · have := (hk s hs.within).1 h1
    rw [Sink.put_eq_app hs] at this
    rw [hr] at this
    simp only [Prod.mk.injEq, Res.ok.injEq] at this
    obtain ⟨rfl, rfl⟩ := this
    refine ⟨rfl, rfl, Sink.app_atEnd hs _ _, rfl, fun i hi1 hi2 => ?_⟩
    have := h1 (i - s.calls) (by simp only [Sink.app] at hi2; omega)
    rwa [show s.calls + (i - s.calls) = i by omega] at this
  · obtain ⟨c, s'', he, _⟩ := (hk s hs.within).2 h1
    rw [hr] at he; simp at he

theorem Emits.outcome {α} {w : W α} {a : α} {bs : Bytes} (h : Emits w a bs) {s : Sink}
    (hs : s.AtEnd) :
    (∃ s', w s = (.ok a, s') ∧ s'.data = s.data ++ bs ∧ s'.AtEnd ∧ s'.plan = s.plan ∧
      ∀ i, s.calls ≤ i → i < s'.calls → s.plan i = none) ∨
    (∃ c s', w s = (.err c, s') ∧ s.Broken s' bs) := by
  obtain ⟨k, hk⟩ := h
  by_cases h1 : s.okFor k
  · have h2 := (hk s hs.within).1 h1
    exact .inl ⟨_, h2, (Emits.success ⟨k, hk⟩ hs h2).2⟩
  · obtain ⟨c, s', h2, h3⟩ := (hk s hs.within).2 h1
    exact .inr ⟨c, s', h2, h3.broken hs⟩

/-- With a sink that never fails, the routine succeeds. -/
theorem Emits.run {α} {w : W α} {a : α} {bs : Bytes} (h : Emits w a bs) {s : Sink}
    (hs : s.AtEnd) (hp : ∀ i, s.plan i = none) :
    ∃ k, w s = (.ok a, s.app bs k) := by
  obtain ⟨k, hk⟩ := h
  exact ⟨k, Sink.put_eq_app hs bs k ▸ (hk s hs.within).1 fun i _ => hp _⟩

end Verif

/-
Lemmas for C92: every allocation of chapters, tags and segment information has one owner, and success means that all was read.
-/
import Verif.Spec.TextMem
import Verif.Lemmas.MuxerBuild

namespace Verif.Par.Texts
open Verif Verif.Spec Verif.Mux.Build

def threeA (t : Three) : List Nat := strA t.first ++ strA t.second ++ strA t.third

def atomA (x : AtomMem) : List Nat := strA x.uid ++ arrA threeA x.displays

theorem three_set (t : Three) (s : Str) (w : Which) (a : Nat) :
    (threeA (t.set s w)).count a + (strA (t.get w)).count a = (threeA t).count a + (strA s).count a := by
  cases w <;> simp only [threeA, Three.set, Three.get, List.count_append] <;> omega

theorem three_get_set (t : Three) (s : Str) (w w' : Which) : (t.set s w).get w' = if w = w' then s else t.get w' := by
  cases w <;> cases w' <;> rfl

theorem unserialize_spec {can : Nat → Bool} {s : Bytes} {read : Int} {old : Str} {m : Mem} {f : Nat → Nat}
    (h : Holds m fun a => (strA old).count a + f a) :
    ∃ st s' m', unserializeString can s read old m = .ok (st, s', m') ∧ Holds m' (fun a => (strA s').count a + f a) ∧
      (read ≤ 0 → st ≤ 0) ∧ (st = 0 → s'.map (·.2) = some s) := by
  obtain ⟨m1, e1, h1⟩ := free_spec (p := old.map (·.1)) (f := f) h
  unfold unserializeString
  rw [e1, Res.bind_ok]
  split
  · exact ⟨-2, none, m1, rfl, h1.of fun a => (by simp [strA]), fun _ => by decide, fun h => (by cases h)⟩
  · cases ea : m1.alloc can with
    | mk p m2 =>
      have h2 := alloc_spec h1 ea
      cases p with
      | none => exact ⟨-2, none, m2, rfl, h2.of fun a => (by simp [strA]), fun _ => by decide, fun h => (by cases h)⟩
      | some b =>
        simp only
        split
        · rename_i hr
          obtain ⟨m3, e3, h3⟩ := free_spec h2
          exact ⟨read, none, m3, by rw [e3]; rfl, h3.of fun a => (by simp [strA]), id, fun h => absurd h hr⟩
        · exact ⟨0, some (b, s), m2, rfl, h2, fun _ => Int.le_refl 0, fun _ => rfl⟩

theorem lastText_cons (w : Which) (p : LeafPart) (ps : List LeafPart) : lastText w (p :: ps) = (lastText w ps).or (lastText w [p]) := by
  unfold lastText
  rw [← List.singleton_append, List.filterMap_append, List.getLast?_append]

theorem parseTexts_spec {can : Nat → Bool} : ∀ {ps : List LeafPart} {t : Three} {m : Mem} {f : Nat → Nat},
    Holds m (fun a => (threeA t).count a + f a) →
    ∃ st t' m', parseTexts can ps t m = .ok (st, t', m') ∧ Holds m' (fun a => (threeA t').count a + f a) ∧
      ((∀ p ∈ ps, LeafPart.NoPositive p) → st ≤ 0) ∧
      (st = 0 → ∀ w, (t'.get w).map (·.2) = (lastText w ps).or ((t.get w).map (·.2)))
  | [], t, m, f, h => ⟨0, t, m, rfl, h, fun _ => Int.le_refl 0, fun _ w => (by simp [lastText])⟩
  | .text w s read :: ps, t, m, f, h => by
    obtain ⟨st, s', m1, e1, h1, hn, hs⟩ := unserialize_spec (can := can) (s := s) (read := read) (old := t.get w)
      (f := fun a => (threeA (t.set none w)).count a + f a) (h.of fun a => by
        have := three_set t none w a
        simp only [strA, Option.map_none, Option.toList_none, List.count_nil] at this ⊢
        omega)
    have h2 : Holds m1 fun a => (threeA (t.set s' w)).count a + f a := h1.of fun a => by
      have := three_set t none w a
      have := three_set t s' w a
      simp only [strA, Option.map_none, Option.toList_none, List.count_nil] at *
      omega
    unfold parseTexts
    rw [e1, Res.bind_ok]
    simp only
    split
    · rename_i hne
      exact ⟨st, _, m1, rfl, h2, fun hp => hn (hp (.text w s read) (by simp)), fun h => absurd h hne⟩
    · rename_i hz
      have hz : st = 0 := Classical.byContradiction hz
      obtain ⟨st', t', m3, e3, h3, hn3, hs3⟩ := parseTexts_spec (can := can) (ps := ps) h2
      refine ⟨st', t', m3, e3, h3, fun hp => hn3 fun p hm => hp p (by simp [hm]), fun h w' => ?_⟩
      rw [hs3 h w', three_get_set, lastText_cons, Option.or_assoc]
      congr 1
      by_cases hw : w = w'
      · rw [if_pos hw, hs hz]
        simp [lastText, hw]
      · rw [if_neg hw]
        simp [lastText, hw]
  | .other :: ps, t, m, f, h => by
    obtain ⟨st', t', m3, e3, h3, hn3, hs3⟩ := parseTexts_spec (can := can) (ps := ps) h
    refine ⟨st', t', m3, e3, h3, fun hp => hn3 fun p hm => hp p (by simp [hm]), fun h w' => ?_⟩
    rw [hs3 h w', lastText_cons]
    simp [lastText]
  | .bad :: ps, t, m, f, h => ⟨-2, t, m, rfl, h, fun _ => by decide, fun h => (by cases h)⟩

theorem three_clear (t : Three) (m : Mem) (f : Nat → Nat) (h : Holds m fun a => (threeA t).count a + f a) :
    ∃ m', t.clear m = .ok m' ∧ Holds m' f := by
  obtain ⟨m1, e1, h1⟩ := free_spec (p := t.first.map (·.1)) (f := fun a => (strA t.second).count a + ((strA t.third).count a + f a))
    (h.of fun a => by simp only [threeA, strA, List.count_append]; omega)
  obtain ⟨m2, e2, h2⟩ := free_spec (p := t.second.map (·.1)) h1
  obtain ⟨m3, e3, h3⟩ := free_spec (p := t.third.map (·.1)) h2
  refine ⟨m3, ?_, h3⟩
  unfold Three.clear
  rw [e1, Res.bind_ok, e2, Res.bind_ok, e3]

theorem addOne_spec {α : Type} {g : α → List Nat} {can : Nat → Bool} {parse : Mem → Res (Int × α × Mem)} {Q : Int → α → Prop}
    (hp : ∀ m f, Holds m f → ∃ st v m', parse m = .ok (st, v, m') ∧ Holds m' (fun a => (g v).count a + f a) ∧ Q st v)
    {x : Arr α} {m : Mem} {f : Nat → Nat} (hx : x.Fine) (hn : x.items.length < 2 ^ 30) (h : Holds m fun a => (arrA g x).count a + f a) :
    ∃ st x' m', addOne can parse x m = .ok (st, x', m') ∧ x'.Fine ∧ Holds m' (fun a => (arrA g x').count a + f a) ∧
      ((st = -1 ∧ x' = x) ∨ ∃ v, Q st v ∧ x'.items = x.items ++ [v]) := by
  obtain ⟨b, x1, m1, e1, hi, hf, h1, ht, hff⟩ := expand_spec (can := can) hx hn h
  unfold addOne
  rw [e1, Res.bind_ok]
  cases b with
  | false => exact ⟨-1, x1, m1, rfl, hf, h1, Or.inl ⟨rfl, hff rfl⟩⟩
  | true =>
    simp only [Bool.not_true, Bool.false_eq_true, if_false]
    obtain ⟨st, v, m2, e2, h2, hq⟩ := hp m1 _ h1
    rw [e2, Res.bind_ok]
    simp only
    obtain ⟨e3, hf3⟩ := push_spec (v := v) (by rw [hi]; exact ht rfl)
    rw [e3, Res.bind_ok]
    refine ⟨st, _, m2, rfl, hf3, h2.of fun a => ?_, Or.inr ⟨v, hq, by rw [← hi]⟩⟩
    simp only [arrA, List.flatMap_append, List.flatMap_cons, List.flatMap_nil, List.append_nil, List.count_append]
    omega

theorem parseArr_spec {P α β : Type} {g : α → List Nat} {can : Nat → Bool} {parse : P → Mem → Res (Int × α × Mem)}
    {sh : α → β} {said : P → β} {NP : P → Prop} : ∀ {es : List (Part P)} {x : Arr α} {m : Mem} {f : Nat → Nat},
    (∀ p ∈ kids es, ∀ m f, Holds m f → ∃ st v m', parse p m = .ok (st, v, m') ∧ Holds m' (fun a => (g v).count a + f a) ∧
      (NP p → st ≤ 0 ∧ (st = 0 → sh v = said p))) →
    x.Fine → x.items.length + es.length ≤ 2 ^ 30 → Holds m (fun a => (arrA g x).count a + f a) →
    ∃ st x' m', parseArr can parse es x m = .ok (st, x', m') ∧ Holds m' (fun a => (arrA g x').count a + f a) ∧
      ((∀ p ∈ kids es, NP p) → st ≤ 0 ∧ (st = 0 → x'.items.map sh = x.items.map sh ++ (kids es).map said))
  | [], x, m, f, _, _, _, h => ⟨0, x, m, rfl, h, fun _ => ⟨Int.le_refl 0, fun _ => by simp [kids]⟩⟩
  | .child p :: es, x, m, f, hp, hx, hn, h => by
    have hk : kids (.child p :: es) = p :: kids es := rfl
    have hl : (Part.child p :: es).length = es.length + 1 := rfl
    obtain ⟨st, x1, m1, e1, hf1, h1, hc⟩ := addOne_spec (can := can) (hp p (by rw [hk]; simp)) hx (by omega) h
    unfold parseArr
    rw [e1, Res.bind_ok]
    simp only
    split
    · rename_i hneg
      exact ⟨st, x1, m1, rfl, h1, fun _ => ⟨by omega, fun h => by omega⟩⟩
    · rename_i hneg
      rcases hc with ⟨hc, -⟩ | ⟨v, hq, hi⟩
      · omega
      · obtain ⟨st', x', m', e', h', hd⟩ := parseArr_spec (can := can) (parse := parse) (sh := sh) (said := said) (NP := NP) (es := es)
          (fun q hm => hp q (by rw [hk]; simp [hm])) hf1 (by rw [hi, List.length_append, List.length_singleton]; omega) h1
        refine ⟨st', x', m', e', h', fun hnp => ?_⟩
        rw [hk] at hnp
        obtain ⟨hle, hsh⟩ := hq (hnp p (by simp))
        obtain ⟨hle', hsh'⟩ := hd fun q hm => hnp q (by simp [hm])
        refine ⟨hle', fun hz => ?_⟩
        rw [hsh' hz, hi, hk, List.map_append, List.map_cons, List.map_nil, List.map_cons, hsh (by omega), List.append_assoc,
          List.singleton_append]
  | .other :: es, x, m, f, hp, hx, hn, h => by
    have hl : (Part.other :: es).length = es.length + 1 := rfl
    exact parseArr_spec (es := es) hp hx (by omega) h
  | .bad :: es, x, m, f, _, _, _, h => ⟨-2, x, m, rfl, h, fun _ => ⟨by decide, fun h => (by cases h)⟩⟩

theorem fine_new {α : Type} : ({} : Arr α).Fine := ⟨Nat.le_refl 0, .inl rfl⟩

theorem said_of_get {t : Three} {ps : List LeafPart} (h : ∀ w, (t.get w).map (·.2) = (lastText w ps).or ((({} : Three).get w).map (·.2))) :
    threeShown t = threeSaid ps := by
  have h1 := h .first
  have h2 := h .second
  have h3 := h .third
  simp only [Three.get, Option.map_none, Option.or_none] at h1 h2 h3
  unfold threeShown threeSaid
  rw [h1, h2, h3]

theorem parseLeaf_spec (can : Nat → Bool) (ps : List LeafPart) (m : Mem) (f : Nat → Nat) (h : Holds m f) :
    ∃ st v m', parseTexts can ps {} m = .ok (st, v, m') ∧ Holds m' (fun a => (threeA v).count a + f a) ∧
      ((∀ p ∈ ps, LeafPart.NoPositive p) → st ≤ 0 ∧ (st = 0 → threeShown v = threeSaid ps)) := by
  obtain ⟨st, v, m', e, h', hn, hs⟩ := parseTexts_spec (can := can) (ps := ps) (t := {}) (h.of fun a => (by
    show _ = (threeA {}).count a + f a; simp [threeA, strA]))
  exact ⟨st, v, m', e, h', fun hp => ⟨hn hp, fun hz => said_of_get (hs hz)⟩⟩

theorem parseTags_at (can : Nat → Bool) {es : TagsIn} (hs : TagsSmall es) {m0 : Mem} {f0 : Nat → Nat} (h0 : Holds m0 f0) :
    ∃ st x m, parseTags can es m0 = .ok (st, x, m) ∧ Holds m (fun a => (arrA (arrA threeA) x).count a + f0 a) ∧
      (TagsNoPositive es → st ≤ 0 ∧ (st = 0 → tagsShown x = tagsSaid es)) := by
  obtain ⟨st, x, m, e, h, hd⟩ := parseArr_spec (can := can) (g := arrA threeA)
    (parse := fun t => parseArr can (fun s => parseTexts can s {}) t {}) (sh := fun t : Arr Three => t.items.map threeShown)
    (said := fun t => (kids t).map threeSaid) (NP := fun t => ∀ s ∈ kids t, ∀ p ∈ s, LeafPart.NoPositive p) (es := es) (x := {}) (m := m0)
    (f := f0) (fun t ht m f h => by
      obtain ⟨st, x, m', e, h', hd⟩ := parseArr_spec (can := can) (sh := threeShown) (said := threeSaid)
        (NP := fun s => ∀ p ∈ s, LeafPart.NoPositive p) (es := t) (x := {}) (fun s _ => parseLeaf_spec can s) fine_new
        (by have := hs.2 t ht; simp; omega) (h.of fun a => (by show _ = (arrA threeA {}).count a + f a; simp [arrA]))
      exact ⟨st, x, m', e, h', fun hp => ⟨(hd hp).1, fun hz => by have := (hd hp).2 hz; simpa using this⟩⟩)
    fine_new (by have := hs.1; simp; omega) (h0.of fun a => by simp [arrA])
  refine ⟨st, x, m, e, h, fun hp => ⟨(hd hp).1, fun hz => ?_⟩⟩
  have := (hd hp).2 hz
  simpa [tagsShown, tagsSaid] using this

theorem parseTags_spec (can : Nat → Bool) {es : TagsIn} (hs : TagsSmall es) :
    ∃ st x m, parseTags can es = .ok (st, x, m) ∧ Holds m (fun a => (arrA (arrA threeA) x).count a + 0) ∧
      (TagsNoPositive es → st ≤ 0 ∧ (st = 0 → tagsShown x = tagsSaid es)) :=
  parseTags_at can hs (m0 := {}) (f0 := fun _ => 0) fun a => by simp

theorem parseAtom_spec {can : Nat → Bool} : ∀ {as : List AtomPart} {x : AtomMem} {m : Mem} {f : Nat → Nat}, x.displays.Fine →
    x.displays.items.length + as.length ≤ 2 ^ 30 → Holds m (fun a => (atomA x).count a + f a) →
    ∃ st x' m', parseAtom can as x m = .ok (st, x', m') ∧ Holds m' (fun a => (atomA x').count a + f a) ∧
      ((∀ p ∈ as, AtomPart.NoPositive p) → st ≤ 0 ∧ (st = 0 →
        x'.uid.map (·.2) = (atomSaid as).1.or (x.uid.map (·.2)) ∧
        x'.displays.items.map threeShown = x.displays.items.map threeShown ++ (atomSaid as).2))
  | [], x, m, f, _, _, h => ⟨0, x, m, rfl, h, fun _ => ⟨Int.le_refl 0, fun _ => by simp [atomSaid]⟩⟩
  | .display ps :: as, x, m, f, hx, hn, h => by
    have hl : (AtomPart.display ps :: as).length = as.length + 1 := rfl
    obtain ⟨st, x1, m1, e1, hf1, h1, hc⟩ := addOne_spec (can := can) (parseLeaf_spec can ps) hx (by omega)
      (f := fun a => (strA x.uid).count a + f a) (h.of fun a => by simp only [atomA, List.count_append]; omega)
    have h1 : Holds m1 fun a => (atomA { x with displays := x1 }).count a + f a :=
      h1.of fun a => by simp only [atomA, List.count_append]; omega
    unfold parseAtom
    rw [e1, Res.bind_ok]
    simp only
    split
    · rename_i hneg
      exact ⟨st, _, m1, rfl, h1, fun _ => ⟨by omega, fun h => by omega⟩⟩
    · rename_i hneg
      rcases hc with ⟨hc, -⟩ | ⟨v, hq, hi⟩
      · omega
      · obtain ⟨st', x', m', e', h', hd⟩ := parseAtom_spec (can := can) (as := as) (x := { x with displays := x1 }) hf1
          (by simp only [hi, List.length_append, List.length_singleton]; omega) h1
        refine ⟨st', x', m', e', h', fun hnp => ?_⟩
        obtain ⟨hle, hsh⟩ := hq (hnp (.display ps) (by simp))
        obtain ⟨hle', hsh'⟩ := hd fun q hm => hnp q (by simp [hm])
        refine ⟨hle', fun hz => ⟨(hsh' hz).1, ?_⟩⟩
        rw [(hsh' hz).2]
        simp only [hi, List.map_append, List.map_cons, List.map_nil]
        rw [hsh (by omega), List.append_assoc]
        rfl
  | .uid s read :: as, x, m, f, hx, hn, h => by
    have hl : (AtomPart.uid s read :: as).length = as.length + 1 := rfl
    obtain ⟨st, s', m1, e1, h1, hle, hsh⟩ := unserialize_spec (can := can) (s := s) (read := read) (old := x.uid)
      (f := fun a => (arrA threeA x.displays).count a + f a) (h.of fun a => by simp only [atomA, List.count_append]; omega)
    have h1 : Holds m1 fun a => (atomA { x with uid := s' }).count a + f a :=
      h1.of fun a => by simp only [atomA, List.count_append]; omega
    unfold parseAtom
    rw [e1, Res.bind_ok]
    simp only
    split
    · rename_i hneg
      exact ⟨st, _, m1, rfl, h1, fun _ => ⟨by omega, fun h => by omega⟩⟩
    · rename_i hneg
      obtain ⟨st', x', m', e', h', hd⟩ := parseAtom_spec (can := can) (as := as) (x := { x with uid := s' }) hx (by simp only; omega) h1
      refine ⟨st', x', m', e', h', fun hnp => ?_⟩
      have hle := hle (hnp (.uid s read) (by simp))
      obtain ⟨hle', hsh'⟩ := hd fun q hm => hnp q (by simp [hm])
      refine ⟨hle', fun hz => ⟨?_, (hsh' hz).2⟩⟩
      rw [(hsh' hz).1]
      simp only
      rw [hsh (by omega)]
      unfold atomSaid
      simp only
      rw [← List.singleton_append (l := as), List.filterMap_append, List.getLast?_append, Option.or_assoc]
      rfl
  | .other :: as, x, m, f, hx, hn, h => by
    have hl : (AtomPart.other :: as).length = as.length + 1 := rfl
    obtain ⟨st', x', m', e', h', hd⟩ := parseAtom_spec (can := can) (as := as) hx (by omega) h
    exact ⟨st', x', m', e', h', fun hnp => hd fun q hm => hnp q (by simp [hm])⟩
  | .bad :: as, x, m, f, _, _, h => ⟨-2, x, m, rfl, h, fun _ => ⟨by decide, fun h => (by cases h)⟩⟩

theorem parseAtom_new (can : Nat → Bool) (as : List AtomPart) (hn : as.length < 2 ^ 30) (m : Mem) (f : Nat → Nat) (h : Holds m f) :
    ∃ st v m', parseAtom can as {} m = .ok (st, v, m') ∧ Holds m' (fun a => (atomA v).count a + f a) ∧
      ((∀ p ∈ as, AtomPart.NoPositive p) → st ≤ 0 ∧ (st = 0 → (v.uid.map (·.2), v.displays.items.map threeShown) = atomSaid as)) := by
  obtain ⟨st, v, m', e, h', hd⟩ := parseAtom_spec (can := can) (as := as) (x := {}) fine_new (by simp; omega) (h.of fun a => (by
    show _ = (atomA {}).count a + f a; simp [atomA, arrA, strA]))
  refine ⟨st, v, m', e, h', fun hp => ⟨(hd hp).1, fun hz => ?_⟩⟩
  obtain ⟨h1, h2⟩ := (hd hp).2 hz
  rw [h1, h2]
  simp

theorem parseChapters_at (can : Nat → Bool) {es : ChaptersIn} (hs : ChaptersSmall es) {m0 : Mem} {f0 : Nat → Nat} (h0 : Holds m0 f0) :
    ∃ st x m, parseChapters can es m0 = .ok (st, x, m) ∧ Holds m (fun a => (arrA (arrA atomA) x).count a + f0 a) ∧
      (ChaptersNoPositive es → st ≤ 0 ∧ (st = 0 → chaptersShown x = chaptersSaid es)) := by
  obtain ⟨st, x, m, e, h, hd⟩ := parseArr_spec (can := can) (g := arrA atomA)
    (parse := fun t => parseArr can (fun s => parseAtom can s {}) t {})
    (sh := fun t : Arr AtomMem => t.items.map fun a => (a.uid.map (·.2), a.displays.items.map threeShown))
    (said := fun t => (kids t).map atomSaid) (NP := fun t => ∀ s ∈ kids t, ∀ p ∈ s, AtomPart.NoPositive p) (es := es) (x := {}) (m := m0)
    (f := f0) (fun t ht m f h => by
      obtain ⟨st, x, m', e, h', hd⟩ := parseArr_spec (can := can)
        (sh := fun a : AtomMem => (a.uid.map (·.2), a.displays.items.map threeShown)) (said := atomSaid)
        (NP := fun s => ∀ p ∈ s, AtomPart.NoPositive p) (es := t) (x := {}) (fun s hm => parseAtom_new can s ((hs.2 t ht).2 s hm)) fine_new
        (by have := (hs.2 t ht).1; simp; omega) (h.of fun a => (by show _ = (arrA atomA {}).count a + f a; simp [arrA]))
      exact ⟨st, x, m', e, h', fun hp => ⟨(hd hp).1, fun hz => by have := (hd hp).2 hz; simpa using this⟩⟩)
    fine_new (by have := hs.1; simp; omega) (h0.of fun a => by simp [arrA])
  refine ⟨st, x, m, e, h, fun hp => ⟨(hd hp).1, fun hz => ?_⟩⟩
  have := (hd hp).2 hz
  simpa [chaptersShown, chaptersSaid] using this

theorem parseChapters_spec (can : Nat → Bool) {es : ChaptersIn} (hs : ChaptersSmall es) :
    ∃ st x m, parseChapters can es = .ok (st, x, m) ∧ Holds m (fun a => (arrA (arrA atomA) x).count a + 0) ∧
      (ChaptersNoPositive es → st ≤ 0 ∧ (st = 0 → chaptersShown x = chaptersSaid es)) :=
  parseChapters_at can hs (m0 := {}) (f0 := fun _ => 0) fun a => by simp

theorem nothing_live {m : Mem} (h : Holds m fun _ => 0) : m.live = [] := by
  apply List.eq_nil_iff_forall_not_mem.mpr
  intro a ha
  have := List.count_pos_iff.mpr ha
  rw [h a] at this
  exact absurd this (Nat.lt_irrefl 0)

theorem atom_clear (x : AtomMem) (m : Mem) (f : Nat → Nat) (h : Holds m fun a => (atomA x).count a + f a) :
    ∃ m', x.clear m = .ok m' ∧ Holds m' f := by
  obtain ⟨m1, e1, h1⟩ := free_spec (p := x.uid.map (·.1)) (f := fun a => (arrA threeA x.displays).count a + f a)
    (h.of fun a => by simp only [atomA, strA, List.count_append]; omega)
  obtain ⟨m2, e2, h2⟩ := arrClear_spec (clear := Three.clear) (fun v _ => three_clear v) h1
  refine ⟨m2, ?_, h2⟩
  unfold AtomMem.clear
  rw [e1, Res.bind_ok, e2]

theorem destroyTags_spec {x : Arr (Arr Three)} {m : Mem} (h : Holds m fun a => (arrA (arrA threeA) x).count a + 0) :
    ∃ m', destroyTags x m = .ok m' ∧ m'.live = [] := by
  obtain ⟨m', e, h'⟩ := arrClear_spec (clear := Arr.clear Three.clear) (fun v _ m f h => arrClear_spec (fun w _ => three_clear w) h) h
  exact ⟨m', e, nothing_live h'⟩

theorem destroyChapters_spec {x : Arr (Arr AtomMem)} {m : Mem} (h : Holds m fun a => (arrA (arrA atomA) x).count a + 0) :
    ∃ m', destroyChapters x m = .ok m' ∧ m'.live = [] := by
  obtain ⟨m', e, h'⟩ := arrClear_spec (clear := Arr.clear AtomMem.clear) (fun v _ m f h => arrClear_spec (fun w _ => atom_clear w) h) h
  exact ⟨m', e, nothing_live h'⟩

/-! ### Memory enough -/

theorem unserialize_good {s : Bytes} {read : Int} {old s' : Str} {m m' : Mem} {st : Int} (hr : read = 0) (hl : s.length ≤ textLimit)
    (h : unserializeString (fun _ => true) s read old m = .ok (st, s', m')) : st = 0 := by
  unfold unserializeString at h
  obtain ⟨m1, -, h⟩ := Res.bind_eq_ok.mp h
  rw [if_neg (by omega)] at h
  simp only [Mem.alloc, if_true, hr, ne_eq, not_true, if_false] at h
  cases h
  rfl

theorem parseTexts_good : ∀ {ps : List LeafPart} {t t' : Three} {m m' : Mem} {st : Int}, (∀ p ∈ ps, LeafPart.Good p) →
    parseTexts (fun _ => true) ps t m = .ok (st, t', m') → st = 0
  | [], t, t', m, m', st, _, h => by cases h; rfl
  | .text w s read :: ps, t, t', m, m', st, hg, h => by
    obtain ⟨⟨st1, s1, m1⟩, e1, h⟩ := Res.bind_eq_ok.mp h
    obtain ⟨hr, hl⟩ := hg (.text w s read) (by simp)
    have := unserialize_good hr hl e1
    simp only [this, ne_eq, not_true, if_false] at h
    exact parseTexts_good (fun p hm => hg p (by simp [hm])) h
  | .other :: ps, t, t', m, m', st, hg, h => parseTexts_good (ps := ps) (fun p hm => hg p (by simp [hm])) h
  | .bad :: ps, t, t', m, m', st, hg, h => absurd (hg .bad (by simp)) (by simp [LeafPart.Good])

theorem addOne_good {α : Type} {parse : Mem → Res (Int × α × Mem)} (hp : ∀ {m st v m'}, parse m = .ok (st, v, m') → st = 0)
    {x x' : Arr α} {m m' : Mem} {st : Int} (h : addOne (fun _ => true) parse x m = .ok (st, x', m')) : st = 0 := by
  obtain ⟨⟨b, x1, m1⟩, e1, h⟩ := Res.bind_eq_ok.mp h
  have := expand_always e1
  simp only [this, Bool.not_true, Bool.false_eq_true, if_false] at h
  obtain ⟨⟨st1, v, m2⟩, e2, h⟩ := Res.bind_eq_ok.mp h
  obtain ⟨x2, -, h⟩ := Res.bind_eq_ok.mp h
  cases h
  exact hp e2

theorem parseArr_good {P α : Type} {parse : P → Mem → Res (Int × α × Mem)} : ∀ {es : List (Part P)} {x x' : Arr α} {m m' : Mem} {st : Int},
    (∀ e ∈ es, ∀ p, e = .child p → ∀ {m st v m'}, parse p m = .ok (st, v, m') → st = 0) → (∀ e ∈ es, e ≠ .bad) →
    parseArr (fun _ => true) parse es x m = .ok (st, x', m') → st = 0
  | [], x, x', m, m', st, _, _, h => by cases h; rfl
  | .child p :: es, x, x', m, m', st, hp, hb, h => by
    obtain ⟨⟨st1, x1, m1⟩, e1, h⟩ := Res.bind_eq_ok.mp h
    have := addOne_good (fun h => hp (.child p) (by simp) p rfl h) e1
    simp only [this, Int.lt_irrefl, if_false] at h
    exact parseArr_good (fun e hm => hp e (by simp [hm])) (fun e hm => hb e (by simp [hm])) h
  | .other :: es, x, x', m, m', st, hp, hb, h =>
    parseArr_good (es := es) (fun e hm => hp e (by simp [hm])) (fun e hm => hb e (by simp [hm])) h
  | .bad :: es, x, x', m, m', st, _, hb, h => absurd rfl (hb .bad (by simp))

theorem parseAtom_good : ∀ {as : List AtomPart} {x x' : AtomMem} {m m' : Mem} {st : Int}, (∀ p ∈ as, AtomPart.Good p) →
    parseAtom (fun _ => true) as x m = .ok (st, x', m') → st = 0
  | [], x, x', m, m', st, _, h => by cases h; rfl
  | .display ps :: as, x, x', m, m', st, hg, h => by
    obtain ⟨⟨st1, x1, m1⟩, e1, h⟩ := Res.bind_eq_ok.mp h
    have := addOne_good (fun h => parseTexts_good (hg (.display ps) (by simp)) h) e1
    simp only [this, Int.lt_irrefl, if_false] at h
    exact parseAtom_good (fun e hm => hg e (by simp [hm])) h
  | .uid s read :: as, x, x', m, m', st, hg, h => by
    obtain ⟨⟨st1, s1, m1⟩, e1, h⟩ := Res.bind_eq_ok.mp h
    obtain ⟨hr, hl⟩ := hg (.uid s read) (by simp)
    have := unserialize_good hr hl e1
    simp only [this, Int.lt_irrefl, if_false] at h
    exact parseAtom_good (fun e hm => hg e (by simp [hm])) h
  | .other :: as, x, x', m, m', st, hg, h => parseAtom_good (as := as) (fun p hm => hg p (by simp [hm])) h
  | .bad :: as, x, x', m, m', st, hg, h => absurd (hg .bad (by simp)) (by simp [AtomPart.Good])

theorem mem_kids {P : Type} {es : List (Part P)} {p : P} (h : Part.child p ∈ es) : p ∈ kids es := by
  unfold kids
  exact List.mem_filterMap.mpr ⟨_, h, rfl⟩

theorem parseTags_good {es : TagsIn} (hg : TagsGood es) {st : Int} {x : Arr (Arr Three)} {m : Mem}
    (h : parseTags (fun _ => true) es = .ok (st, x, m)) : st = 0 :=
  parseArr_good (fun _ hm _ hp => fun h =>
    have ht := hg.2 _ (mem_kids (hp ▸ hm))
    parseArr_good (fun _ hm' _ hp' => fun h => parseTexts_good (ht.2 _ (mem_kids (hp' ▸ hm'))) h) ht.1 h) hg.1 h

theorem parseChapters_good {es : ChaptersIn} (hg : ChaptersGood es) {st : Int} {x : Arr (Arr AtomMem)} {m : Mem}
    (h : parseChapters (fun _ => true) es = .ok (st, x, m)) : st = 0 :=
  parseArr_good (fun _ hm _ hp => fun h =>
    have ht := hg.2 _ (mem_kids (hp ▸ hm))
    parseArr_good (fun _ hm' _ hp' => fun h => parseAtom_good (ht.2 _ (mem_kids (hp' ▸ hm'))) h) ht.1 h) hg.1 h

end Verif.Par.Texts

/-
Lemmas for C87: every allocation has one owner.
-/
import Verif.Spec.Building

namespace Verif.Mux.Build
open Verif Verif.Spec

/-- Every address is allocated as often as `f` says. -/
def Holds (m : Mem) (f : Nat → Nat) : Prop := ∀ a, m.live.count a = f a

theorem Holds.of {m : Mem} {f g : Nat → Nat} (h : Holds m f) (e : ∀ a, f a = g a) : Holds m g := fun a => (h a).trans (e a)

/-- The addresses an object owns. -/
def strA (s : Str) : List Nat := (s.map (·.1)).toList

def partA (ss : List Str) : List Nat := ss.flatMap strA

def arrA {α : Type} (g : α → List Nat) (x : Arr α) : List Nat := x.addr.toList ++ x.items.flatMap g

def objA (o : Obj) : List Nat := strA o.id ++ arrA partA o.parts

theorem free_spec {m : Mem} {p : Option Nat} {f : Nat → Nat} (h : Holds m fun a => p.toList.count a + f a) :
    ∃ m', m.free p = .ok m' ∧ Holds m' f := by
  cases p with
  | none => exact ⟨m, rfl, h.of fun a => by simp⟩
  | some b =>
    have hb : b ∈ m.live := by
      have := h b
      apply List.count_pos_iff.mp
      rw [this]
      simp
      omega
    refine ⟨{ m with live := m.live.erase b }, by unfold Mem.free; simp only; rw [if_pos hb], fun a => ?_⟩
    have := h a
    show (m.live.erase b).count a = f a
    rw [List.count_erase, this]
    simp only [Option.toList_some, List.count_singleton]
    split <;> omega

theorem alloc_spec {can : Nat → Bool} {m m' : Mem} {p : Option Nat} {f : Nat → Nat} (h : Holds m f)
    (e : m.alloc can = (p, m')) : Holds m' fun a => p.toList.count a + f a := by
  unfold Mem.alloc at e
  split at e
  · cases e
    intro a
    have := h a
    simp only [List.count_cons, Option.toList_some, List.count_nil, this]
    omega
  · cases e
    intro a
    have := h a
    simp only [Option.toList_none, List.count_nil, this]
    omega

theorem strCpy_spec {can : Nat → Bool} {m : Mem} {src : Option Bytes} {dst : Str} {f : Nat → Nat}
    (h : Holds m fun a => (strA dst).count a + f a) :
    ∃ b s m', strCpy can src dst m = .ok (b, s, m') ∧ Holds m' (fun a => (strA s).count a + f a) ∧
      (b = true → s.map (·.2) = src) := by
  obtain ⟨m1, e1, h1⟩ := free_spec h
  unfold strCpy
  rw [e1]
  cases src with
  | none => exact ⟨true, none, m1, rfl, h1.of fun a => by simp [strA], fun _ => rfl⟩
  | some t =>
    rcases e2 : m1.alloc can with ⟨p, m2⟩
    have h2 := alloc_spec h1 e2
    cases p with
    | none =>
      refine ⟨false, none, m2, ?_, h2.of fun a => by simp [strA], fun h => by cases h⟩
      show (match m1.alloc can with | (none, m) => _ | (some a, m) => _) = _
      rw [e2]
    | some b =>
      refine ⟨true, some (b, t), m2, ?_, h2.of fun a => by simp [strA], fun _ => rfl⟩
      show (match m1.alloc can with | (none, m) => _ | (some a, m) => _) = _
      rw [e2]

/-- The members of an array fit each other. -/
structure Arr.Fine {α : Type} (x : Arr α) : Prop where
  room : x.items.length ≤ x.size
  there : x.size = 0 ∨ x.addr ≠ none

theorem expand_spec {α : Type} {g : α → List Nat} {can : Nat → Bool} {x : Arr α} {m : Mem} {f : Nat → Nat} (hx : x.Fine)
    (hn : x.items.length < 2 ^ 30) (h : Holds m fun a => (arrA g x).count a + f a) :
    ∃ b x' m', x.expand can m = .ok (b, x', m') ∧ x'.items = x.items ∧ x'.Fine ∧
      Holds m' (fun a => (arrA g x').count a + f a) ∧ (b = true → x.items.length < x'.size ∧ x'.addr ≠ none) ∧
      (b = false → x' = x) := by
  unfold Arr.expand
  by_cases hs : x.size > x.items.length
  · rw [if_pos hs]
    refine ⟨true, x, m, rfl, rfl, hx, h, fun _ => ⟨hs, ?_⟩, fun h => by cases h⟩
    rcases hx.there with h | h
    · omega
    · exact h
  · rw [if_neg hs]
    have hr := hx.room
    simp only
    have hsz : ¬ (if x.size = 0 then 1 else 2 * x.size) ≥ 2 ^ 31 := by split <;> omega
    rw [if_neg hsz]
    rcases e2 : m.alloc can with ⟨p, m2⟩
    have h2 := alloc_spec h e2
    cases p with
    | none =>
      exact ⟨false, x, m2, rfl, rfl, hx, h2.of fun a => by simp, (fun h => by cases h), fun _ => rfl⟩
    | some b =>
      obtain ⟨m3, e3, h3⟩ := free_spec (m := m2) (p := x.addr)
        (f := fun a => [b].count a + (x.items.flatMap g).count a + f a) (h2.of fun a => by
          simp only [arrA, List.count_append, Option.toList_some]; omega)
      refine ⟨true, { x with addr := some b, size := if x.size = 0 then 1 else 2 * x.size }, m3, ?_, rfl, ⟨?_, .inr (by simp)⟩, ?_, ?_, ?_⟩
      · show (m2.free x.addr >>= _) = _
        rw [e3]
        rfl
      · show x.items.length ≤ if x.size = 0 then 1 else 2 * x.size
        split <;> omega
      · exact h3.of fun a => by simp only [arrA, List.count_append, Option.toList_some]
      · intro _
        refine ⟨?_, by simp⟩
        show x.items.length < if x.size = 0 then 1 else 2 * x.size
        split <;> omega
      · intro h; cases h

theorem push_spec {α : Type} {x : Arr α} {v : α} (h : x.items.length < x.size ∧ x.addr ≠ none) :
    x.push v = .ok { x with items := x.items ++ [v] } ∧ ({ x with items := x.items ++ [v] } : Arr α).Fine := by
  refine ⟨?_, ⟨?_, .inr h.2⟩⟩
  · unfold Arr.push
    rw [if_neg (by rintro (h' | h'); exact h.2 h'; omega)]
  · show (x.items ++ [v]).length ≤ x.size
    rw [List.length_append, List.length_singleton]
    omega

theorem fill_spec {can : Nat → Bool} {args : List (Option Bytes)} : ∀ {m : Mem} {f : Nat → Nat}, Holds m f →
    ∃ b ss m', fill can args m = .ok (b, ss, m') ∧ Holds m' (fun a => (partA ss).count a + f a) ∧
      (b = true → ss.map (·.map (·.2)) = args) := by
  induction args with
  | nil => intro m f h; exact ⟨true, [], m, rfl, h.of fun a => by simp [partA], fun _ => rfl⟩
  | cons x xs ih =>
    intro m f h
    obtain ⟨b, s, m1, e1, h1, g1⟩ := strCpy_spec (can := can) (src := x) (dst := none) (f := f) (h.of fun a => by simp [strA])
    unfold fill
    rw [e1]
    cases b with
    | true =>
      obtain ⟨b', ss, m2, e2, h2, g2⟩ := ih h1
      refine ⟨b', s :: ss, m2, ?_, ?_, ?_⟩
      · show (fill can xs m1 >>= _) = _
        rw [e2]; rfl
      · exact h2.of fun a => by simp only [partA, List.flatMap_cons, List.count_append]; omega
      · intro hb; rw [List.map_cons, g1 rfl, g2 hb]
    | false =>
      refine ⟨false, s :: xs.map fun _ => none, m1, rfl, h1.of fun a => ?_, fun h => by cases h⟩
      have : (List.map (fun _ => (none : Str)) xs).flatMap strA = [] := by
        clear ih e1
        induction xs with
        | nil => rfl
        | cons y ys ih => rw [List.map_cons, List.flatMap_cons, ih]; rfl
      simp only [partA, List.flatMap_cons, this, List.append_nil]

theorem addPart_spec {can : Nat → Bool} {args : List (Option Bytes)} {o : Obj} {m : Mem} {f : Nat → Nat} (hx : o.parts.Fine)
    (hn : o.parts.items.length < 2 ^ 30) (h : Holds m fun a => (objA o).count a + f a) :
    ∃ b ps m', o.addPart can args m = .ok (b, { o with parts := ps }, m') ∧ ps.Fine ∧ ps.items.length ≤ o.parts.items.length + 1 ∧
      Holds m' (fun a => (objA { o with parts := ps }).count a + f a) ∧
      (b = true → ps.items.map (·.map (·.map (·.2))) = o.parts.items.map (·.map (·.map (·.2))) ++ [args]) := by
  obtain ⟨b, x', m1, e1, i1, f1, h1, g1, g1'⟩ := expand_spec (g := partA) (can := can) (f := fun a => (strA o.id).count a + f a) hx hn
    (h.of fun a => by simp only [objA, List.count_append]; omega)
  unfold Obj.addPart
  rw [e1]
  cases b with
  | false =>
    refine ⟨false, x', m1, rfl, f1, by rw [i1]; omega, h1.of fun a => ?_, fun h => by cases h⟩
    simp only [objA, List.count_append]; omega
  | true =>
    obtain ⟨b', ss, m2, e2, h2, g2⟩ := fill_spec (can := can) (args := args) h1
    obtain ⟨e3, f3⟩ := push_spec (v := ss) (by rw [i1]; exact g1 rfl)
    refine ⟨b', { x' with items := x'.items ++ [ss] }, m2, ?_, f3, ?_, h2.of fun a => ?_, fun hb => ?_⟩
    · show (fill can args m1 >>= _) = _
      rw [e2]
      show (x'.push ss >>= _) = _
      rw [e3]
      rfl
    · show (x'.items ++ [ss]).length ≤ _
      rw [List.length_append, i1]; simp
    · simp only [objA, arrA, List.count_append, List.flatMap_append, List.flatMap_cons, List.flatMap_nil, List.append_nil]; omega
    · show (x'.items ++ [ss]).map _ = _
      rw [List.map_append, i1, List.map_cons, g2 hb]; rfl

/-! ### Destruction -/

theorem clearPart_spec {ss : List Str} : ∀ {m : Mem} {f : Nat → Nat}, Holds m (fun a => (partA ss).count a + f a) →
    ∃ m', clearPart ss m = .ok m' ∧ Holds m' f := by
  induction ss with
  | nil => intro m f h; exact ⟨m, rfl, h.of fun a => by simp [partA]⟩
  | cons s ss ih =>
    intro m f h
    obtain ⟨m1, e1, h1⟩ := free_spec (p := s.map (·.1)) (f := fun a => (partA ss).count a + f a) (h.of fun a => by
      simp only [partA, List.flatMap_cons, List.count_append, strA]; omega)
    obtain ⟨m2, e2, h2⟩ := ih h1
    refine ⟨m2, ?_, h2⟩
    unfold clearPart
    rw [e1]
    exact e2

theorem clearAll_spec {α : Type} {g : α → List Nat} {clear : α → Mem → Res Mem} {vs : List α}
    (hc : ∀ v ∈ vs, ∀ (m : Mem) (f : Nat → Nat), Holds m (fun a => (g v).count a + f a) → ∃ m', clear v m = .ok m' ∧ Holds m' f) :
    ∀ {m : Mem} {f : Nat → Nat}, Holds m (fun a => (vs.flatMap g).count a + f a) →
    ∃ m', clearAll clear vs m = .ok m' ∧ Holds m' f := by
  induction vs with
  | nil => intro m f h; exact ⟨m, rfl, h.of fun a => by simp⟩
  | cons v vs ih =>
    intro m f h
    obtain ⟨m1, e1, h1⟩ := hc v (List.mem_cons_self ..) m (fun a => (vs.flatMap g).count a + f a) (h.of fun a => by
      simp only [List.flatMap_cons, List.count_append]; omega)
    obtain ⟨m2, e2, h2⟩ := ih (fun w hw => hc w (List.mem_cons_of_mem _ hw)) h1
    refine ⟨m2, ?_, h2⟩
    unfold clearAll
    rw [e1]
    exact e2

theorem count_reverse_flatMap {α : Type} (g : α → List Nat) (vs : List α) (a : Nat) :
    (vs.reverse.flatMap g).count a = (vs.flatMap g).count a := by
  induction vs with
  | nil => rfl
  | cons v vs ih =>
    rw [List.reverse_cons, List.flatMap_append, List.count_append, ih]
    simp only [List.flatMap_cons, List.flatMap_nil, List.append_nil, List.count_append, List.count_nil]
    omega

theorem arrClear_spec {α : Type} {g : α → List Nat} {clear : α → Mem → Res Mem} {x : Arr α}
    (hc : ∀ v ∈ x.items, ∀ (m : Mem) (f : Nat → Nat), Holds m (fun a => (g v).count a + f a) → ∃ m', clear v m = .ok m' ∧ Holds m' f)
    {m : Mem} {f : Nat → Nat} (h : Holds m (fun a => (arrA g x).count a + f a)) :
    ∃ m', x.clear clear m = .ok m' ∧ Holds m' f := by
  obtain ⟨m1, e1, h1⟩ := clearAll_spec (g := g) (clear := clear) (vs := x.items.reverse)
    (fun v hv => hc v (List.mem_reverse.mp hv)) (f := fun a => x.addr.toList.count a + f a) (h.of fun a => by
      rw [count_reverse_flatMap]; simp only [arrA, List.count_append]; omega)
  obtain ⟨m2, e2, h2⟩ := free_spec h1
  refine ⟨m2, ?_, h2⟩
  unfold Arr.clear
  rw [e1]
  exact e2

theorem objClear_spec {o : Obj} {m : Mem} {f : Nat → Nat} (h : Holds m (fun a => (objA o).count a + f a)) :
    ∃ m', o.clear m = .ok m' ∧ Holds m' f := by
  obtain ⟨m1, e1, h1⟩ := free_spec (p := o.id.map (·.1)) (f := fun a => (arrA partA o.parts).count a + f a) (h.of fun a => by
    simp only [objA, strA, List.count_append]; omega)
  obtain ⟨m2, e2, h2⟩ := arrClear_spec (clear := clearPart) (fun v _ m f h => clearPart_spec h) h1
  refine ⟨m2, ?_, h2⟩
  unfold Obj.clear
  rw [e1]
  exact e2

/-! ### Histories -/

/-- What an object says. -/
structure Text where
  id : Option Bytes
  start : UInt64
  stop : UInt64
  uid : UInt64
  parts : List (List (Option Bytes))

def Obj.text (o : Obj) : Text := ⟨o.id.map (·.2), o.start, o.stop, o.uid, o.parts.items.map (·.map (·.map (·.2)))⟩

/-- What a call changes. -/
def Call.says : Call → Text → Text
  | .add _, t => t
  | .setId s, t => { t with id := s }
  | .setTime scale start stop, t => { t with start := start / scale, stop := stop / scale }
  | .setUid uid, t => { t with uid := uid }
  | .addString a b c, t => { t with parts := t.parts ++ [[a, b, c]] }
  | .addSimpleTag a b, t => { t with parts := t.parts ++ [[a, b]] }

/-- Not a division by zero. -/
def Call.Sane : Call → Prop
  | .setTime scale _ _ => scale ≠ 0
  | _ => True

theorem on_spec {can : Nat → Bool} {c : Call} (hc : c.Sane) {o : Obj} {m : Mem} {f : Nat → Nat} (hx : o.parts.Fine)
    (hn : o.parts.items.length < 2 ^ 30) (h : Holds m fun a => (objA o).count a + f a) :
    ∃ b o' m', c.on can o m = .ok (b, o', m') ∧ o'.parts.Fine ∧ o'.parts.items.length ≤ o.parts.items.length + 1 ∧
      Holds m' (fun a => (objA o').count a + f a) ∧ (b = true → o'.text = c.says o.text) := by
  have part : ∀ args, ∃ b o' m', o.addPart can args m = .ok (b, o', m') ∧ o'.parts.Fine ∧ o'.parts.items.length ≤ o.parts.items.length + 1 ∧
      Holds m' (fun a => (objA o').count a + f a) ∧ (b = true → o'.text = { o.text with parts := o.text.parts ++ [args] }) := by
    intro args
    obtain ⟨b, ps, m1, e, h1, h2, h3, h4⟩ := addPart_spec (args := args) (can := can) hx hn h
    refine ⟨b, _, m1, e, h1, h2, h3, fun hb => ?_⟩
    unfold Obj.text
    simp only [h4 hb]
  cases c with
  | add u => exact ⟨true, o, m, rfl, hx, by omega, h, fun _ => rfl⟩
  | setId s =>
    obtain ⟨b, d, m1, e1, h1, g1⟩ := strCpy_spec (can := can) (src := s) (dst := o.id) (f := fun a => (arrA partA o.parts).count a + f a)
      (h.of fun a => by simp only [objA, List.count_append]; omega)
    refine ⟨b, { o with id := d }, m1, ?_, hx, Nat.le_succ _, h1.of fun a => ?_, fun hb => ?_⟩
    · show (strCpy can s o.id m >>= _) = _
      rw [e1]; rfl
    · simp only [objA, List.count_append]; omega
    · unfold Obj.text Call.says
      simp only [g1 hb]
  | setTime scale s e =>
    refine ⟨true, { o with start := s / scale, stop := e / scale }, m, ?_, hx, Nat.le_succ _, h, fun _ => rfl⟩
    show (if scale = 0 then _ else _) = _
    rw [if_neg hc]
  | setUid u => exact ⟨true, { o with uid := u }, m, rfl, hx, Nat.le_succ _, h, fun _ => rfl⟩
  | addString a b c => exact part [a, b, c]
  | addSimpleTag a b => exact part [a, b]

/-- A state that a history leads to. -/
structure St.Inv (x : St) (n : Nat) : Prop where
  fine : x.arr.Fine
  few : x.arr.items.length ≤ n
  parts : ∀ o ∈ x.arr.items, o.parts.Fine ∧ o.parts.items.length ≤ n
  mem : Holds x.mem fun a => (arrA objA x.arr).count a
  last : (x.last = none ∧ x.arr.items = []) ∨
    ∃ init o a, x.arr.items = init ++ [o] ∧ x.arr.addr = some a ∧ x.last = some ⟨a, init.length⟩

/-- What is said after a call. -/
def saidAfter (ts : List Text) : Call × Bool → List Text
  | (.add uid, ok) => if ok then ts ++ [⟨none, 0, 0, uid, []⟩] else ts
  | (c, _) => onLast c.says ts

theorem onLast_append {α : Type} (f : α → α) (xs : List α) (x : α) : onLast f (xs ++ [x]) = xs ++ [f x] := by
  induction xs with
  | nil => rfl
  | cons y ys ih =>
    cases ys with
    | nil => rfl
    | cons z zs => exact congrArg (y :: ·) ih

theorem step_spec {can : Nat → Bool} {c : Call} (hc : c.Sane) {x : St} {n : Nat} (hx : x.Inv n) (hn : n < 2 ^ 30) :
    ∃ b x', x.step can c = .ok (b, x') ∧ x'.Inv (n + 1) ∧
      ((b = true ∨ ∃ uid, c = .add uid) → x'.arr.items.map Obj.text = saidAfter (x.arr.items.map Obj.text) (c, b)) := by
  have hrest : ∀ c : Call, c.Sane → (∀ uid, c ≠ .add uid) → ∃ b x', (match x.last with
      | none => (.ok (false, x) : Res (Bool × St))
      | some h => x.use can c h) = .ok (b, x') ∧ x'.Inv (n + 1) ∧
      (b = true → x'.arr.items.map Obj.text = onLast c.says (x.arr.items.map Obj.text)) := by
    intro c hc hne
    rcases hx.last with ⟨h1, h2⟩ | ⟨init, o, a, h1, h2, h3⟩
    · rw [h1]
      refine ⟨false, x, rfl, ⟨hx.fine, by have := hx.few; omega, fun o ho => ⟨(hx.parts o ho).1, by have := (hx.parts o ho).2; omega⟩, hx.mem, hx.last⟩,
        fun h => by cases h⟩
    · rw [h3]
      obtain ⟨ho1, ho2⟩ := hx.parts o (by rw [h1]; simp)
      obtain ⟨b, o', m', e, p1, p2, p3, p4⟩ := on_spec (can := can) hc (o := o) (m := x.mem)
        (f := fun a => x.arr.addr.toList.count a + (init.flatMap objA).count a) ho1 (by omega) (hx.mem.of fun a => by
          simp only [arrA, h1, List.flatMap_append, List.count_append, List.flatMap_cons, List.flatMap_nil, List.append_nil]; omega)
      have hset : (init ++ [o]).set init.length o' = init ++ [o'] := by simp
      refine ⟨b, { x with arr := { x.arr with items := init ++ [o'] }, mem := m' }, ?_, ⟨⟨?_, .inr (by show x.arr.addr ≠ none; rw [h2]; simp)⟩, ?_, ?_, ?_, .inr ⟨init, o', a, rfl, h2, h3⟩⟩, ?_⟩
      · show x.use can c ⟨a, init.length⟩ = _
        unfold St.use Arr.at
        rw [h2, if_pos rfl, h1]
        simp only [List.getElem?_append_right (Nat.le_refl _), Nat.sub_self, List.getElem?_cons_zero]
        show (c.on can o x.mem >>= _) = _
        rw [e]
        show Res.ok _ = Res.ok _
        rw [hset]
      · have := hx.fine.room
        rw [h1] at this
        simpa using this
      · have := hx.few
        rw [h1] at this
        simp at this ⊢
        omega
      · intro q hq
        rcases List.mem_append.mp hq with hq | hq
        · have := hx.parts q (by rw [h1]; exact List.mem_append_left _ hq)
          exact ⟨this.1, by omega⟩
        · rw [List.mem_singleton.mp hq]
          exact ⟨p1, by omega⟩
      · exact p3.of fun a => by
          simp only [arrA, List.flatMap_append, List.count_append, List.flatMap_cons, List.flatMap_nil, List.append_nil]; omega
      · intro hb
        show (init ++ [o']).map Obj.text = _
        rw [h1, List.map_append, List.map_append, List.map_cons, List.map_nil, List.map_cons, List.map_nil, onLast_append, p4 hb]
  have hother : (∀ uid, c ≠ .add uid) → x.step can c = (match x.last with
      | none => (.ok (false, x) : Res (Bool × St))
      | some h => x.use can c h) ∧ ∀ b, saidAfter (x.arr.items.map Obj.text) (c, b) = onLast c.says (x.arr.items.map Obj.text) := by
    intro hne
    cases c with
    | add uid => exact absurd rfl (hne uid)
    | _ => exact ⟨by unfold St.step; cases x.last <;> rfl, fun _ => rfl⟩
  by_cases hadd : ∃ uid, c = .add uid
  · obtain ⟨uid, rfl⟩ := hadd
    obtain ⟨b, y, m1, e1, i1, f1, h1, g1, g1'⟩ := expand_spec (g := objA) (can := can) (f := fun _ => 0) hx.fine (by have := hx.few; omega)
      (hx.mem.of fun a => by simp)
    have hfew := hx.few
    cases b with
    | false =>
      refine ⟨false, { x with mem := m1, arr := y }, ?_, ?_, fun _ => ?_⟩
      · show x.add can uid = _
        unfold St.add
        rw [e1]; rfl
      · rw [g1' rfl]
        rw [g1' rfl] at h1
        exact ⟨hx.fine, by show x.arr.items.length ≤ _; omega, fun o ho => ⟨(hx.parts o ho).1, by have := (hx.parts o ho).2; omega⟩,
          h1.of fun a => by simp, hx.last⟩
      · show y.items.map _ = _
        rw [i1]; rfl
    | true =>
      obtain ⟨e3, f3⟩ := push_spec (v := ({ uid := uid } : Obj)) (by rw [i1]; exact g1 rfl)
      obtain ⟨a, ha⟩ := Option.ne_none_iff_exists'.mp (g1 rfl).2
      refine ⟨true, { mem := m1, arr := { y with items := y.items ++ [{ uid := uid }] }, last := y.addr.map fun a => ⟨a, y.items.length⟩ }, ?_,
        ⟨f3, ?_, ?_, h1.of fun a => ?_, .inr ⟨y.items, _, a, rfl, ha, by rw [ha]; rfl⟩⟩, fun _ => ?_⟩
      · show x.add can uid = _
        unfold St.add
        rw [e1]
        show (y.push { uid := uid } >>= _) = _
        rw [e3]
        rfl
      · show (y.items ++ [_]).length ≤ _
        rw [List.length_append, i1, List.length_singleton]; omega
      · intro q hq
        rcases List.mem_append.mp hq with hq | hq
        · rw [i1] at hq
          exact ⟨(hx.parts q hq).1, by have := (hx.parts q hq).2; omega⟩
        · rw [List.mem_singleton.mp hq]
          exact ⟨⟨Nat.le_refl _, .inl rfl⟩, Nat.zero_le _⟩
      · simp [arrA, objA, strA, List.count_append]
      · show (y.items ++ [_]).map Obj.text = _
        rw [i1, List.map_append]
        rfl
  · have hne : ∀ uid, c ≠ .add uid := fun uid h => hadd ⟨uid, h⟩
    obtain ⟨b, x', e, h1, h2⟩ := hrest c hc hne
    refine ⟨b, x', (hother hne).1.trans e, h1, fun hb => ?_⟩
    rw [(hother hne).2 b]
    rcases hb with hb | hb
    · exact h2 hb
    · exact absurd hb hadd

theorem run_spec {can : Nat → Bool} {cs : List Call} : ∀ {x : St} {n : Nat}, (∀ c ∈ cs, c.Sane) → x.Inv n → n + cs.length < 2 ^ 30 →
    ∃ bs x', St.run can cs x = .ok (bs, x') ∧ bs.length = cs.length ∧ x'.Inv (n + cs.length) ∧
      (OnlyAddsFail (cs.zip bs) → x'.arr.items.map Obj.text = (cs.zip bs).foldl saidAfter (x.arr.items.map Obj.text)) := by
  induction cs with
  | nil => intro x n _ hx _; exact ⟨[], x, rfl, rfl, hx, fun _ => rfl⟩
  | cons c cs ih =>
    intro x n hc hx hn
    rw [List.length_cons] at hn
    obtain ⟨b, x1, e1, h1, g1⟩ := step_spec (can := can) (hc c (List.mem_cons_self ..)) hx (by omega)
    obtain ⟨bs, x2, e2, l2, h2, g2⟩ := ih (fun d hd => hc d (List.mem_cons_of_mem _ hd)) h1 (by omega)
    refine ⟨b :: bs, x2, ?_, by rw [List.length_cons, List.length_cons, l2], ?_, fun ho => ?_⟩
    · unfold St.run
      rw [e1]
      show (St.run can cs x1 >>= _) = _
      rw [e2]; rfl
    · rw [List.length_cons, show n + (cs.length + 1) = n + 1 + cs.length by omega]; exact h2
    · rw [List.zip_cons_cons] at ho ⊢
      rw [List.foldl_cons, g2 fun y hy => ho y (List.mem_cons_of_mem _ hy), g1 (ho (c, b) (List.mem_cons_self ..))]

theorem fresh_inv : ({} : St).Inv 0 :=
  ⟨⟨Nat.le_refl _, .inl rfl⟩, Nat.le_refl _, (fun o ho => nomatch ho), (fun a => rfl), .inl ⟨rfl, rfl⟩⟩

theorem destroy_spec {x : St} {n : Nat} (hx : x.Inv n) : ∃ m, x.destroy = .ok m ∧ m.live = [] := by
  obtain ⟨m, e, h⟩ := arrClear_spec (g := objA) (x := x.arr) (clear := Obj.clear) (fun v _ m f h => objClear_spec h) (f := fun _ => 0) (hx.mem.of fun a => by simp)
  refine ⟨m, e, List.eq_nil_iff_forall_not_mem.mpr fun a ha => ?_⟩
  have := List.count_pos_iff.mpr ha
  rw [h a] at this
  exact Nat.lt_irrefl _ this

/-! ### When no allocation fails -/

private abbrev always : Nat → Bool := fun _ => true

theorem strCpy_always {src : Option Bytes} {dst : Str} {m m' : Mem} {b : Bool} {s : Str}
    (h : strCpy always src dst m = .ok (b, s, m')) : b = true := by
  unfold strCpy at h
  obtain ⟨m1, _, h⟩ := Res.bind_eq_ok.mp h
  cases src <;> (cases h; rfl)

theorem expand_always {α : Type} {x x' : Arr α} {m m' : Mem} {b : Bool} (h : x.expand always m = .ok (b, x', m')) : b = true := by
  unfold Arr.expand at h
  split at h
  · cases h; rfl
  · by_cases hs : (if x.size = 0 then 1 else 2 * x.size) ≥ 2 ^ 31
    · simp only [if_pos hs] at h
      cases h
    · simp only [if_neg hs] at h
      obtain ⟨m1, _, h⟩ := Res.bind_eq_ok.mp (show (Mem.free x.addr _ >>= _) = _ from h)
      cases h; rfl

theorem fill_always {args : List (Option Bytes)} : ∀ {m m' : Mem} {b : Bool} {ss : List Str},
    fill always args m = .ok (b, ss, m') → b = true := by
  induction args with
  | nil => intro m m' b ss h; cases h; rfl
  | cons a as ih =>
    intro m m' b ss h
    unfold fill at h
    obtain ⟨⟨b1, s1, m1⟩, e1, h⟩ := Res.bind_eq_ok.mp h
    have hb := strCpy_always e1
    subst hb
    obtain ⟨⟨b2, s2, m2⟩, e2, h⟩ := Res.bind_eq_ok.mp (show (fill always as m1 >>= _) = _ from h)
    cases h
    exact ih e2

theorem addPart_always {args : List (Option Bytes)} {o o' : Obj} {m m' : Mem} {b : Bool}
    (h : o.addPart always args m = .ok (b, o', m')) : b = true := by
  unfold Obj.addPart at h
  obtain ⟨⟨b1, s1, m1⟩, e1, h⟩ := Res.bind_eq_ok.mp h
  have hb := expand_always e1
  subst hb
  obtain ⟨⟨b2, s2, m2⟩, e2, h⟩ := Res.bind_eq_ok.mp (show (fill always args m1 >>= _) = _ from h)
  have hb := fill_always e2
  subst hb
  obtain ⟨ps, _, h⟩ := Res.bind_eq_ok.mp (show (Arr.push s1 s2 >>= _) = _ from h)
  cases h; rfl

theorem on_always {c : Call} {o o' : Obj} {m m' : Mem} {b : Bool} (h : c.on always o m = .ok (b, o', m')) : b = true := by
  cases c with
  | add u => cases h; rfl
  | setId s =>
    obtain ⟨⟨b1, s1, m1⟩, e1, h⟩ := Res.bind_eq_ok.mp (show (strCpy always s o.id m >>= _) = _ from h)
    cases h
    exact strCpy_always e1
  | setTime a s e =>
    by_cases hs : a = 0
    · have h : (if a = 0 then _ else _) = _ := h
      rw [if_pos hs] at h
      cases h
    · have h : (if a = 0 then _ else _) = _ := h
      rw [if_neg hs] at h
      cases h; rfl
  | setUid u => cases h; rfl
  | addString a b c => exact addPart_always h
  | addSimpleTag a b => exact addPart_always h

theorem use_always {c : Call} {x x' : St} {p : Handle} {b : Bool} (h : x.use always c p = .ok (b, x')) :
    b = true ∧ x'.last = x.last := by
  unfold St.use at h
  obtain ⟨o, _, h⟩ := Res.bind_eq_ok.mp h
  obtain ⟨⟨b1, s1, m1⟩, e1, h⟩ := Res.bind_eq_ok.mp h
  cases h
  exact ⟨on_always e1, rfl⟩

theorem add_always {u : UInt64} {x x' : St} {b : Bool} (h : x.add always u = .ok (b, x')) : b = true ∧ x'.last ≠ none := by
  unfold St.add at h
  obtain ⟨⟨b1, s1, m1⟩, e1, h⟩ := Res.bind_eq_ok.mp h
  have hb := expand_always e1
  subst hb
  obtain ⟨ps, e2, h⟩ := Res.bind_eq_ok.mp (show (Arr.push s1 _ >>= _) = _ from h)
  cases h
  refine ⟨rfl, ?_⟩
  unfold Arr.push at e2
  split at e2
  · cases e2
  · rename_i hp
    show Option.map _ s1.addr ≠ none
    intro h
    rw [Option.map_eq_none_iff] at h
    exact hp (.inl h)

theorem step_always {c : Call} {x x' : St} {b : Bool} (hl : x.last ≠ none ∨ ∃ u, c = .add u) (h : x.step always c = .ok (b, x')) :
    b = true ∧ x'.last ≠ none := by
  by_cases hc : ∃ u, c = .add u
  · obtain ⟨u, rfl⟩ := hc
    exact add_always h
  · have hx := hl.resolve_right hc
    obtain ⟨p, hp⟩ := Option.ne_none_iff_exists'.mp hx
    have : x.step always c = x.use always c p := by
      unfold St.step
      rw [hp]
      cases c with
      | add u => exact absurd ⟨u, rfl⟩ hc
      | _ => rfl
    rw [this] at h
    obtain ⟨h1, h2⟩ := use_always h
    exact ⟨h1, by rw [h2]; exact hx⟩

theorem run_always {cs : List Call} : ∀ {x x' : St} {rs : List Bool}, x.last ≠ none → St.run always cs x = .ok (rs, x') →
    rs = List.replicate cs.length true := by
  induction cs with
  | nil => intro x x' rs _ h; cases h; rfl
  | cons c cs ih =>
    intro x x' rs hl h
    unfold St.run at h
    obtain ⟨⟨b, x1⟩, e1, h⟩ := Res.bind_eq_ok.mp h
    obtain ⟨⟨bs, x2⟩, e2, h⟩ := Res.bind_eq_ok.mp h
    cases h
    obtain ⟨h1, h2⟩ := step_always (.inl hl) e1
    rw [h1, ih h2 e2]
    rfl

theorem run_succeeds (uid : UInt64) {calls : List Call} {rs : List Bool} {st : St}
    (hrun : St.run (fun _ => true) (.add uid :: calls) {} = .ok (rs, st)) : rs = List.replicate (calls.length + 1) true := by
  unfold St.run at hrun
  obtain ⟨⟨b, x1⟩, e1, h⟩ := Res.bind_eq_ok.mp hrun
  obtain ⟨⟨bs, x2⟩, e2, h⟩ := Res.bind_eq_ok.mp h
  cases h
  obtain ⟨h1, h2⟩ := step_always (.inr ⟨uid, rfl⟩) e1
  rw [h1, run_always h2 e2]
  rfl

end Verif.Mux.Build

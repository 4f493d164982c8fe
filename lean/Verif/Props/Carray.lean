import Verif.Model.Carray
import Mathlib.Data.List.Perm.Basic
/-!
# The circular array (C177)
-/

namespace Prexel
variable {α : Type}

namespace CircularArray

/-- What was pushed. -/
def pushed : List (Call α) → List α
  | [] => []
  | .push x :: cs => x :: pushed cs
  | _ :: cs => pushed cs

/-- The calls do not write into the array. -/
def Plain : Call α → Prop
  | .getMut _ _ | .indexMut _ _ => False
  | _ => True

/-- Arrays as histories leave them: no more elements than the capacity, and room for one at least. -/
def Sound (a : CircularArray α) : Prop := 0 < a.capacity ∧ a.len ≤ a.capacity

theorem call_sound {a b : CircularArray α} {c : Call α} {o : Option α} (h : Sound a) (hc : a.call c = .ok (o, b)) : Sound b ∧ b.capacity = a.capacity := by
  obtain ⟨data, cap⟩ := a
  obtain ⟨h1, h2⟩ := h
  simp only [capacity, len] at h1 h2
  cases c with
  | push x =>
    simp only [call, push] at hc
    split at hc
    · cases data with
      | nil => cases hc
      | cons y ys =>
        simp only [Res.bind_ok, Res.ok.injEq, Prod.mk.injEq] at hc
        obtain ⟨-, rfl⟩ := hc
        refine ⟨⟨h1, ?_⟩, rfl⟩
        simp [len, capacity] at h2 ⊢; omega
    · simp only [Res.bind_ok, Res.ok.injEq, Prod.mk.injEq] at hc
      obtain ⟨-, rfl⟩ := hc
      refine ⟨⟨h1, ?_⟩, rfl⟩
      simp [len, capacity]; omega
  | pop =>
    simp only [call, pop, Res.ok.injEq, Prod.mk.injEq] at hc
    obtain ⟨-, rfl⟩ := hc
    refine ⟨⟨h1, ?_⟩, rfl⟩
    simp [len, capacity]; omega
  | remove i =>
    simp only [call, remove, Res.ok.injEq] at hc
    split at hc
    · cases hc; exact ⟨⟨h1, h2⟩, rfl⟩
    · cases hc
      refine ⟨⟨h1, ?_⟩, rfl⟩
      simp only [len, capacity, List.length_eraseIdx]
      split <;> omega
  | getMut i g =>
    simp only [call, getMut, Res.ok.injEq, Prod.mk.injEq] at hc
    obtain ⟨-, rfl⟩ := hc
    exact ⟨⟨h1, by simpa [len, capacity] using h2⟩, rfl⟩
  | indexMut i g =>
    simp only [call, indexMut] at hc
    split at hc
    · cases hc
      exact ⟨⟨h1, by simpa [len, capacity] using h2⟩, rfl⟩
    · cases hc

end CircularArray
open CircularArray

/-- C177: the array after any calls has its capacity still, and not more elements. -/
theorem C177_capacity (cap : Nat) (h0 : 0 < cap) (cs : List (Call α)) (os : List (Option α)) (a : CircularArray α)
    (h : (CircularArray.new cap).calls cs = .ok (os, a)) : a.capacity = cap ∧ a.len ≤ cap := by
  have key : ∀ (cs : List (Call α)) (os : List (Option α)) (a b : CircularArray α), Sound a → a.calls cs = .ok (os, b) →
      Sound b ∧ b.capacity = a.capacity := by
    intro cs
    induction cs with
    | nil => intro os a b ha h; simp only [calls, Res.ok.injEq, Prod.mk.injEq] at h; obtain ⟨-, rfl⟩ := h; exact ⟨ha, rfl⟩
    | cons c cs ih =>
      intro os a b ha h
      simp only [calls] at h
      cases hc : a.call c with
      | err k => rw [hc] at h; cases h
      | panic => rw [hc] at h; cases h
      | ok r =>
        obtain ⟨o, a'⟩ := r
        obtain ⟨s1, s2⟩ := call_sound ha hc
        rw [hc] at h
        simp only [Res.bind_ok] at h
        cases hs : a'.calls cs with
        | err k => rw [hs] at h; cases h
        | panic => rw [hs] at h; cases h
        | ok s =>
          rw [hs] at h
          simp only [Res.bind_ok, Res.ok.injEq, Prod.mk.injEq] at h
          obtain ⟨-, rfl⟩ := h
          obtain ⟨t1, t2⟩ := ih s.1 a' s.2 s1 (by rw [hs])
          exact ⟨t1, t2.trans s2⟩
  obtain ⟨⟨-, k1⟩, k2⟩ := key cs os (.new cap) a ⟨h0, Nat.zero_le _⟩ h
  have k2 : a.capacity = cap := k2
  exact ⟨k2, k2 ▸ k1⟩

/-- C177: the reading methods agree; an index beyond the end panics. -/
theorem C177_reads (a : CircularArray α) : a.intoIter = a.iter ∧ a.iter.length = a.len ∧ a.last = a.get (a.len - 1) ∧
    (∀ i, a.get i = a.iter[i]?) ∧ (∀ i x, a.index i = .ok x ↔ a.get i = some x) ∧ (∀ i, a.index i = .panic ↔ a.len ≤ i) ∧
    ∀ i, a.get i = none ↔ a.len ≤ i := by
  refine ⟨rfl, rfl, List.getLast?_eq_getElem?, fun _ => rfl, fun i x => ?_, fun i => ?_, fun i => List.getElem?_eq_none_iff⟩
  · unfold index CircularArray.get
    cases a.data[i]? <;> simp
  · unfold index
    have : a.data[i]? = none ↔ a.data.length ≤ i := List.getElem?_eq_none_iff
    cases h : a.data[i]? with
    | none => simpa [len] using this.mp h
    | some x =>
      constructor
      · intro hc; cases hc
      · intro hc; rw [this.mpr hc] at h; cases h

/-- C177: what a push changes. The oldest element makes room if the array is full. -/
theorem C177_push (a : CircularArray α) (h : Sound a) (x : α) : ∃ b, a.call (.push x) = .ok (none, b) ∧
    ∀ j, b.get j = if a.len < a.capacity then (if j = a.len then some x else a.get j)
      else (if j + 1 = a.len then some x else a.get (j + 1)) := by
  obtain ⟨data, cap⟩ := a
  obtain ⟨h1, h2⟩ := h
  simp only [capacity, len] at h1 h2
  simp only [call, push]
  simp only [show (⟨data, cap⟩ : CircularArray α).len = data.length from rfl, show (⟨data, cap⟩ : CircularArray α).capacity = cap from rfl]
  by_cases hl : data.length = cap
  · rw [if_pos hl]
    cases data with
    | nil => simp at hl; omega
    | cons y ys =>
      refine ⟨_, rfl, fun j => ?_⟩
      rw [if_neg (by omega : ¬ (y :: ys).length < cap)]
      simp only [CircularArray.get, List.length_cons, List.getElem?_cons_succ]
      by_cases hj : j < ys.length
      · rw [List.getElem?_append_left hj, if_neg (by omega)]
      · rw [List.getElem?_append_right (by omega)]
        by_cases he : j = ys.length
        · rw [if_pos (by omega)]; simp [he]
        · rw [if_neg (by omega), List.getElem?_eq_none (by simp; omega), List.getElem?_eq_none (by omega)]
  · rw [if_neg hl]
    refine ⟨_, rfl, fun j => ?_⟩
    rw [if_pos (by omega : data.length < cap)]
    simp only [CircularArray.get]
    by_cases hj : j < data.length
    · rw [List.getElem?_append_left hj, if_neg (by omega)]
    · rw [List.getElem?_append_right (by omega)]
      by_cases he : j = data.length
      · rw [if_pos he]; simp [he]
      · rw [if_neg he, List.getElem?_eq_none (by simp; omega), List.getElem?_eq_none (by omega)]

/-- C177: an array with room for nothing panics at the first push. -/
theorem C177_zero (x : α) : (CircularArray.new 0).call (.push x) = .panic := rfl

/-- C177: what the other calls change. -/
theorem C177_changes (a : CircularArray α) :
    (∃ b, a.call .pop = .ok (a.get (a.len - 1), b) ∧ ∀ j, b.get j = if j + 1 < a.len then a.get j else none) ∧
    (∀ i, ∃ b, a.call (.remove i) = .ok (a.get i, b) ∧ ∀ j, b.get j = if j < i then a.get j else if i < a.len then a.get (j + 1) else a.get j) ∧
    (∀ i g, ∃ b, a.call (.getMut i g) = .ok (a.get i, b) ∧ ∀ j, b.get j = if j = i then (a.get i).map g else a.get j) ∧
    (∀ i g, (i < a.len → a.call (.indexMut i g) = a.call (.getMut i g)) ∧ (a.len ≤ i → a.call (.indexMut i g) = .panic)) := by
  obtain ⟨data, cap⟩ := a
  generalize hn : (⟨data, cap⟩ : CircularArray α).len = n
  have hn : data.length = n := hn
  refine ⟨⟨⟨data.dropLast, cap⟩, by simp only [call, pop, CircularArray.get, List.getLast?_eq_getElem?, hn], fun j => ?_⟩, fun i => ?_, fun i g => ⟨_, rfl, fun j => ?_⟩, fun i g => ⟨fun hi => ?_, fun hi => ?_⟩⟩
  · simp only [CircularArray.get, List.getElem?_dropLast, hn]
    by_cases h : j < n - 1
    · rw [if_pos h, if_pos (by omega)]
    · rw [if_neg h, if_neg (by omega)]
  · by_cases hi : data.length ≤ i
    · refine ⟨⟨data, cap⟩, ?_, fun j => ?_⟩
      · simp only [call, remove, if_pos hi, CircularArray.get, List.getElem?_eq_none hi]
      · rw [if_neg (show ¬ i < n by omega)]; simp
    · refine ⟨_, by simp only [call, remove, if_neg hi, CircularArray.get]; rfl, fun j => ?_⟩
      simp only [CircularArray.get, List.getElem?_eraseIdx]
      by_cases hj : j < i
      · rw [if_pos hj, if_pos hj]
      · rw [if_neg hj, if_neg hj, if_pos (by omega)]
  · simp only [CircularArray.get, List.getElem?_modify]
    by_cases h : j = i
    · subst h; simp
    · rw [if_neg h]; simp [Ne.symm h]
  · simp only [call, indexMut, getMut, List.getElem?_eq_getElem (hn.symm ▸ hi : i < data.length)]
  · simp only [call, indexMut, List.getElem?_eq_none (hn.symm ▸ hi : data.length ≤ i)]

/-- What a call leaves, of what was there and is pushed. -/
theorem calls_kept {cs : List (Call α)} (hp : ∀ c ∈ cs, Plain c) : ∀ a : CircularArray α, Sound a →
    ∃ os b, a.calls cs = .ok (os, b) ∧ b.data.Sublist (a.data ++ pushed cs) ∧
      ∃ lost, (a.data ++ pushed cs).Perm (os.filterMap id ++ lost ++ b.data) ∧ (a.data.length + (pushed cs).length ≤ a.cap → lost = []) := by
  induction cs with
  | nil => exact fun a _ => ⟨[], a, rfl, by simp [pushed], [], by simp [pushed], fun _ => rfl⟩
  | cons c cs ih =>
    intro a ha
    have step : ∀ (o : Option α) (a' : CircularArray α), a.call c = .ok (o, a') →
        (∀ xs, a'.data ++ pushed cs = xs → xs.Sublist (a.data ++ pushed (c :: cs))) →
        (∃ l, (a.data ++ pushed (c :: cs)).Perm (o.toList ++ l ++ (a'.data ++ pushed cs)) ∧
          (a.data.length + (pushed (c :: cs)).length ≤ a.cap → l = [] ∧ a'.data.length + (pushed cs).length ≤ a.cap)) →
        ∃ os b, a.calls (c :: cs) = .ok (os, b) ∧ b.data.Sublist (a.data ++ pushed (c :: cs)) ∧
          ∃ lost, (a.data ++ pushed (c :: cs)).Perm (os.filterMap id ++ lost ++ b.data) ∧
            (a.data.length + (pushed (c :: cs)).length ≤ a.cap → lost = []) := by
      intro o a' hc hs ⟨l, hl, he⟩
      obtain ⟨s1, s2⟩ := call_sound ha hc
      obtain ⟨os, b, h1, h2, lost, h3, h4⟩ := ih (fun c hc => hp c (List.mem_cons_of_mem _ hc)) a' s1
      refine ⟨o :: os, b, by simp only [calls, hc, Res.bind_ok, h1], h2.trans (hs _ rfl), l ++ lost, ?_, fun h => ?_⟩
      · refine hl.trans ?_
        have e : (o :: os).filterMap id = o.toList ++ os.filterMap id := by cases o <;> rfl
        rw [e]
        refine (h3.append_left (o.toList ++ l)).trans ?_
        simp only [List.append_assoc]
        refine List.Perm.append_left _ ?_
        exact List.perm_append_comm_assoc _ _ _
      · obtain ⟨e1, e2⟩ := he h
        have : a'.cap = a.cap := s2
        rw [e1, h4 (by omega)]
        rfl
    obtain ⟨data, cap⟩ := a
    obtain ⟨g1, g2⟩ := ha
    simp only [capacity, len] at g1 g2
    cases c with
    | push x =>
      by_cases hl : data.length = cap
      · cases data with
        | nil => simp at hl; omega
        | cons y ys =>
          refine step none ⟨ys ++ [x], cap⟩ (by simp only [call, push, if_pos hl, Res.bind_ok]) ?_ ⟨[y], ?_, fun h => ?_⟩
          · rintro _ rfl
            simp [pushed]
          · simp [pushed]
          · simp only [pushed, List.length_cons] at h hl; omega
      · refine step none ⟨data ++ [x], cap⟩ (by simp only [call, push, if_neg hl, Res.bind_ok]) ?_ ⟨[], ?_, fun h => ⟨rfl, ?_⟩⟩
        · rintro _ rfl
          simp [pushed]
        · simp [pushed]
        · simp [pushed] at h ⊢; omega
    | pop =>
      rcases List.eq_nil_or_concat data with rfl | ⟨d, z, rfl⟩
      · exact step none ⟨[], cap⟩ rfl (by rintro _ rfl; simp [pushed]) ⟨[], by simp [pushed], fun h => ⟨rfl, by simpa [pushed] using h⟩⟩
      · refine step (some z) ⟨d, cap⟩ (by simp [call, pop]) ?_ ⟨[], ?_, fun h => ⟨rfl, ?_⟩⟩
        · rintro _ rfl
          simp [pushed]
        · simp [pushed]
        · simp [pushed] at h ⊢; omega
    | remove i =>
      by_cases hi : data.length ≤ i
      · exact step none ⟨data, cap⟩ (by simp only [call, remove, if_pos hi]) (by rintro _ rfl; simp [pushed])
          ⟨[], by simp [pushed], fun h => ⟨rfl, by simpa [pushed] using h⟩⟩
      · have hi' : i < data.length := by omega
        refine step (some data[i]) ⟨data.eraseIdx i, cap⟩ (by simp only [call, remove, if_neg hi, List.getElem?_eq_getElem hi']) ?_ ⟨[], ?_, fun h => ⟨rfl, ?_⟩⟩
        · rintro _ rfl
          exact (List.eraseIdx_sublist _ _).append (List.Sublist.refl _)
        · have := List.getElem_cons_eraseIdx_perm hi'
          simpa [pushed] using this.symm.append_right (pushed cs)
        · simp [pushed, List.length_eraseIdx, hi'] at h ⊢; omega
    | getMut i g => exact absurd (hp _ List.mem_cons_self) (fun h => h)
    | indexMut i g => exact absurd (hp _ List.mem_cons_self) (fun h => h)

/-- C177: nothing is lost or made up: what was pushed has been returned, or is in the array, in the order of the pushes, or has made room; nothing
makes room unless there are more pushes than the capacity. -/
theorem C177_kept (cap : Nat) (h0 : 0 < cap) (cs : List (Call α)) (hp : ∀ c ∈ cs, Plain c) :
    ∃ os a, (CircularArray.new cap).calls cs = .ok (os, a) ∧ a.iter.Sublist (pushed cs) ∧
      ∃ lost, (pushed cs).Perm (os.filterMap id ++ lost ++ a.iter) ∧ ((pushed cs).length ≤ cap → lost = []) := by
  obtain ⟨os, a, h1, h2, lost, h3, h4⟩ := calls_kept hp (.new cap) ⟨h0, Nat.zero_le _⟩
  exact ⟨os, a, h1, by simpa [CircularArray.new, iter] using h2, lost, by simpa [CircularArray.new, iter] using h3,
    fun h => h4 (by simpa [CircularArray.new] using h)⟩

/-- Three pushes into an array of two, a write, and a pop. -/
example : ((CircularArray.new 2).calls [.push 1, .push 2, .push 3, .indexMut 0 (· + 10), .pop] : Res (List (Option Nat) × CircularArray Nat)) =
    .ok ([none, none, none, some 2, some 3], ⟨[12], 2⟩) ∧ Sound (⟨[12], 2⟩ : CircularArray Nat) ∧
    ∀ c ∈ ([.push 1, .push 2, .push 3, .remove 0, .pop] : List (Call Nat)), Plain c := by
  refine ⟨by decide, ⟨by decide, by decide⟩, ?_⟩
  intro c hc
  simp only [List.mem_cons, List.not_mem_nil, or_false] at hc
  rcases hc with rfl | rfl | rfl | rfl | rfl <;> exact trivial

/-- C177: arrays are equal if they have the same capacity and the same elements at the same places. -/
theorem C177_equal (a b : CircularArray α) : a = b ↔ a.capacity = b.capacity ∧ ∀ i, a.get i = b.get i := by
  refine ⟨fun h => h ▸ ⟨rfl, fun _ => rfl⟩, fun ⟨h1, h2⟩ => ?_⟩
  obtain ⟨d1, c1⟩ := a
  obtain ⟨d2, c2⟩ := b
  have e1 : c1 = c2 := h1
  have e2 : d1 = d2 := List.ext_getElem? h2
  rw [e1, e2]

theorem cmpData_self {c : α → α → Ordering} (hc : ∀ x, c x x = .eq) : ∀ l, cmpData c l l = .eq
  | [] => rfl
  | x :: l => by simp only [cmpData, hc, cmpData_self hc l]; rfl

theorem cmpData_eq {c : α → α → Ordering} (hc : ∀ x y, c x y = .eq → x = y) : ∀ l m, cmpData c l m = .eq → l = m
  | [], [], _ => rfl
  | [], _ :: _, h => by cases h
  | _ :: _, [], h => by cases h
  | x :: l, y :: m, h => by
    simp only [cmpData] at h
    cases hx : c x y with
    | eq => rw [hx] at h; rw [hc x y hx, cmpData_eq hc l m h]
    | lt => rw [hx] at h; cases h
    | gt => rw [hx] at h; cases h

theorem cmpData_diff {c : α → α → Ordering} (hc : ∀ x, c x x = .eq) {x y : α} (h : c x y ≠ .eq) :
    ∀ (i : Nat) (l m : List α), l[i]? = some x → m[i]? = some y → (∀ j < i, l[j]? = m[j]?) → cmpData c l m = c x y
  | _, [], _, h1, _, _ => by simp at h1
  | _, _ :: _, [], _, h2, _ => by simp at h2
  | 0, a :: l, b :: m, h1, h2, _ => by
    obtain rfl : a = x := by simpa using h1
    obtain rfl : b = y := by simpa using h2
    simp only [cmpData]
    cases hx : c a b with
    | eq => exact absurd hx h
    | lt => rfl
    | gt => rfl
  | i + 1, a :: l, b :: m, h1, h2, h3 => by
    obtain rfl : a = b := by simpa using h3 0 (Nat.succ_pos i)
    simp only [cmpData, hc]
    exact cmpData_diff hc h i l m (by simpa using h1) (by simpa using h2) fun j hj => by simpa using h3 (j + 1) (by omega)

theorem cmpData_prefix {c : α → α → Ordering} (hc : ∀ x, c x x = .eq) :
    ∀ l m : List α, l.length < m.length → (∀ j < l.length, l[j]? = m[j]?) → cmpData c l m = .lt ∧ cmpData c m l = .gt
  | [], [], h, _ => by simp at h
  | [], _ :: _, _, _ => ⟨rfl, rfl⟩
  | _ :: _, [], h, _ => by simp at h
  | a :: l, b :: m, h, h3 => by
    obtain rfl : a = b := by simpa using h3 0 (by simp)
    simp only [cmpData, hc]
    exact cmpData_prefix hc l m (by simpa using h) fun j hj => by simpa using h3 (j + 1) (by simpa using hj)

/-- C177: the ordering. The first place that differs decides, then the length, then the capacity. -/
theorem C177_order (c : α → α → Ordering) (hc : ∀ x y, c x y = .eq ↔ x = y) (a b : CircularArray α) :
    (a.cmp c b = .eq ↔ a = b) ∧
    (∀ i x y, a.get i = some x → b.get i = some y → x ≠ y → (∀ j < i, a.get j = b.get j) → a.cmp c b = c x y) ∧
    (a.len < b.len → (∀ j < a.len, a.get j = b.get j) → a.cmp c b = .lt ∧ b.cmp c a = .gt) ∧
    ((∀ j, a.get j = b.get j) → a.cmp c b = compare a.capacity b.capacity) := by
  obtain ⟨d1, c1⟩ := a
  obtain ⟨d2, c2⟩ := b
  have hr : ∀ x, c x x = .eq := fun x => (hc x x).mpr rfl
  simp only [CircularArray.cmp, capacity]
  refine ⟨⟨fun h => ?_, fun h => ?_⟩, fun i x y h1 h2 h3 h4 => ?_, fun h1 h2 => ?_, fun h => ?_⟩
  · cases hd : cmpData c d1 d2 with
    | eq =>
      rw [hd] at h
      have h : compare c1 c2 = .eq := h
      rw [cmpData_eq (fun x y => (hc x y).mp) d1 d2 hd, Nat.compare_eq_eq.mp h]
    | lt => rw [hd] at h; cases h
    | gt => rw [hd] at h; cases h
  · cases h
    rw [cmpData_self hr]
    exact Nat.compare_eq_eq.mpr rfl
  · have hn : c x y ≠ .eq := fun h => h3 ((hc x y).mp h)
    rw [cmpData_diff hr hn i d1 d2 h1 h2 h4]
    cases hx : c x y with
    | eq => exact absurd hx hn
    | lt => rfl
    | gt => rfl
  · obtain ⟨e1, e2⟩ := cmpData_prefix hr d1 d2 h1 h2
    rw [e1, e2]
    exact ⟨rfl, rfl⟩
  · obtain rfl : d1 = d2 := List.ext_getElem? h
    rw [cmpData_self hr]
    rfl

/-- An ordering as asked for, and arrays that differ at the second place. -/
example : (∀ x y : Nat, compare x y = .eq ↔ x = y) ∧ (⟨[1, 2], 5⟩ : CircularArray Nat).cmp compare ⟨[1, 3], 2⟩ = .lt ∧
    (⟨[1, 2], 5⟩ : CircularArray Nat).cmp compare ⟨[1, 2], 2⟩ = .gt := ⟨fun _ _ => Nat.compare_eq_eq, by decide, by decide⟩

end Prexel

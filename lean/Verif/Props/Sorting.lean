import Verif.Model.IteratorExt
/-!
# Sorting adapters (C156)
-/

namespace Prexel
variable {A B : Type}

/-- A total order as `Ord` asks for it, up to equivalence. -/
structure TotalOrder (compare : A → A → Ordering) : Prop where
  swap : ∀ a b, (compare a b).swap = compare b a
  trans : ∀ a b c, compare a b ≠ .gt → compare b c ≠ .gt → compare a c ≠ .gt

/-- What sorting means: the same items, none before a smaller one, and equivalent ones in the order in which they came. -/
structure SortedFrom (compare : A → A → Ordering) (items out : List A) : Prop where
  perm : out.Perm items
  ordered : out.Pairwise fun a b => compare a b ≠ .gt
  stable : ∀ x, (out.filter fun a => compare x a == .eq) = items.filter fun a => compare x a == .eq

theorem TotalOrder.eq_le {compare : A → A → Ordering} (h : TotalOrder compare) {x a b : A} (ha : compare x a = .eq) (hb : compare x b = .eq) :
    compare a b ≠ .gt := by
  refine h.trans a x b ?_ (by simp [hb])
  rw [← h.swap, ha]; simp

theorem TotalOrder.refl {compare : A → A → Ordering} (h : TotalOrder compare) (a : A) : compare a a = .eq := by
  have := h.swap a a
  cases hc : compare a a <;> simp_all [Ordering.swap]

theorem sortedBy_sorted {compare : A → A → Ordering} (h : TotalOrder compare) (items : List A) : SortedFrom compare items (sortedBy compare items) := by
  have ht : ∀ a b c : A, (compare a b != .gt) = true → (compare b c != .gt) = true → (compare a c != .gt) = true := by
    intro a b c; simpa using h.trans a b c
  have htot : ∀ a b : A, (compare a b != .gt || compare b a != .gt) = true := by
    intro a b
    rw [← h.swap a b]
    cases compare a b <;> simp [Ordering.swap]
  refine ⟨List.mergeSort_perm _ _, ?_, fun x => ?_⟩
  · have := List.pairwise_mergeSort ht htot items
    unfold sortedBy
    simpa using this
  · have hs : List.Sublist (items.filter fun a => compare x a == .eq) (sortedBy compare items) := by
      refine List.sublist_mergeSort ht htot ?_ List.filter_sublist
      refine List.pairwise_iff_getElem.mpr fun i j hi hj _ => ?_
      obtain ⟨ha, hb⟩ := (⟨List.getElem_mem hi, List.getElem_mem hj⟩ : _ ∧ _)
      simp only [List.mem_filter, beq_iff_eq] at ha hb
      simpa using h.eq_le ha.2 hb.2
    have hs' := hs.filter fun a => compare x a == .eq
    rw [List.filter_filter] at hs'
    simp only [Bool.and_self] at hs'
    refine (hs'.eq_of_length ?_).symm
    exact ((List.mergeSort_perm items _).filter _).length_eq.symm

/-- There is only one way to sort. -/
theorem SortedFrom.unique {compare : A → A → Ordering} (h : TotalOrder compare) : ∀ {out out' items : List A}, SortedFrom compare items out →
    SortedFrom compare items out' → out = out'
  | [], out', items, s, s' => by
    have := (s'.perm.trans s.perm.symm).length_eq
    simpa using (List.length_eq_zero_iff.mp this).symm
  | a :: out, [], items, s, s' => by
    have := (s'.perm.trans s.perm.symm).length_eq
    simp at this
  | a :: out, b :: out', items, s, s' => by
    have hp : (a :: out).Perm (b :: out') := s.perm.trans s'.perm.symm
    have hle : ∀ {a : A} {out : List A}, (a :: out).Pairwise (fun a b => compare a b ≠ .gt) → ∀ x ∈ a :: out, compare a x ≠ .gt := by
      intro a out ho x hx
      rcases List.mem_cons.mp hx with rfl | hx
      · rw [h.refl]; simp
      · exact (List.pairwise_cons.mp ho).1 x hx
    have h1 : compare a b ≠ .gt := hle s.ordered b (hp.mem_iff.mpr (List.mem_cons_self ..))
    have h2 : compare b a ≠ .gt := hle s'.ordered a (hp.mem_iff.mp (List.mem_cons_self ..))
    have he : compare a b = .eq := by
      rw [← h.swap] at h2
      cases hc : compare a b <;> simp_all [Ordering.swap]
    have hab : a = b := by
      have := (s.stable a).trans (s'.stable a).symm
      simp only [List.filter_cons, h.refl, he, beq_self_eq_true, if_true] at this
      exact (List.cons.inj this).1
    subst hab
    have := SortedFrom.unique h (out := out) (out' := out') (items := out') ⟨hp.cons_inv, (List.pairwise_cons.mp s.ordered).2, fun x => ?_⟩
      ⟨List.Perm.refl _, (List.pairwise_cons.mp s'.ordered).2, fun _ => rfl⟩
    · rw [this]
    · have := (s.stable x).trans (s'.stable x).symm
      simp only [List.filter_cons] at this
      split at this
      · exact (List.cons.inj this).2
      · exact this

/-- C156. `sorted`, `sorted_by` and `sorted_by_key` return the items of the iterator in order, equivalent ones in the order in which they came;
and that is the only list of which this is true. -/
theorem C156_sorted {compare : A → A → Ordering} (h : TotalOrder compare) (items out : List A) :
    (sortedBy compare items = out ↔ SortedFrom compare items out) ∧ (sorted compare items = out ↔ SortedFrom compare items out) := by
  have : sortedBy compare items = out ↔ SortedFrom compare items out :=
    ⟨fun e => e ▸ sortedBy_sorted h items, fun s => (sortedBy_sorted h items).unique h s⟩
  exact ⟨this, this⟩

/-- See `C156_sorted`: items with the same key stay in order. -/
theorem C156_by_key {compare : B → B → Ordering} (h : TotalOrder compare) (key : A → B) (items out : List A) :
    sortedByKey compare key items = out ↔ SortedFrom (fun a b => compare (key a) (key b)) items out :=
  (C156_sorted (compare := fun a b => compare (key a) (key b)) ⟨fun a b => h.swap (key a) (key b), fun a b c => h.trans (key a) (key b) (key c)⟩ items out).1

/-- C156: the helpers for options are true exactly of a value that is there and equal. -/
theorem C156_contains (eq : A → B → Bool) (o : Option B) (x : A) (t : Option Str) (value : Str) :
    (containsSome eq o x = true ↔ ∃ y, o = some y ∧ eq x y = true) ∧ (containsStr t value = true ↔ t = some value) := by
  cases o <;> cases t <;> simp [containsSome, containsStr]

/-- Not vacuous: `["4a", "2b", "1c", "2d"]` by the first character. -/
example : TotalOrder (fun a b : Nat => compare a b) ∧
    SortedFrom (fun a b : Str => compare ((a.head?.map Char.toNat).getD 0) ((b.head?.map Char.toNat).getD 0)) [str "4a", str "2b", str "1c", str "2d"]
      [str "1c", str "2b", str "2d", str "4a"] := by
  have h : TotalOrder (fun a b : Nat => compare a b) := by
    refine ⟨fun a b => Nat.compare_swap a b, fun a b c => ?_⟩
    simp only [ne_eq, Nat.compare_eq_gt]
    omega
  refine ⟨h, by decide, by decide, fun x => ?_⟩
  generalize ((x.head?.map Char.toNat).getD 0) = n
  by_cases h1 : n = 49
  · subst h1; rfl
  by_cases h2 : n = 50
  · subst h2; rfl
  by_cases h4 : n = 52
  · subst h4; rfl
  have e : ∀ k : Nat, n ≠ k → (compare n k == .eq) = false := fun k hk => by simpa using hk
  have e1 := e 49 h1
  have e2 := e 50 h2
  have e4 := e 52 h4
  simp [str, e1, e2, e4]

end Prexel

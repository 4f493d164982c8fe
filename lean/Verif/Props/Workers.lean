import Verif.Model.Workers
import Verif.Props.RateLimit
/-!
# C114 with several workers
-/

namespace Prexel

/-- The requests of an identifier that were passed on by any worker, with times from `a` up to but not including `b`. -/
def passedByAll (id : Str) (a b : Nat) (l : List (Arrival × Bool)) : Nat :=
  (l.filter fun s => s.1.id == id && s.2 && decide (a ≤ s.1.time) && decide (s.1.time < b)).length

/-- What one worker does, it does as if it was alone. -/
theorem runWorkers_one (w : Nat) : ∀ (h : List Arrival) (stores : Nat → RateStore),
    ((runWorkers stores h).filter (·.1.worker == w)).map (fun s => (⟨s.1.time, s.1.id, s.2⟩ : Served)) =
      (stores w).run ((h.filter (·.worker == w)).map fun r => (r.time, r.id)) := by
  intro h
  induction h with
  | nil => intro stores; rfl
  | cons r rest ih =>
    intro stores
    by_cases hw : r.worker = w
    · subst hw
      simp only [runWorkers, List.filter_cons, beq_self_eq_true, if_true, List.map_cons, RateStore.run]
      rw [ih]
      simp
    · have hb : (r.worker == w) = false := by simpa using hw
      simp only [runWorkers, List.filter_cons, hb, Bool.false_eq_true, if_false]
      rw [ih]
      simp [Ne.symm hw]

theorem passed_worker (id : Str) (a b w : Nat) (l : List (Arrival × Bool)) :
    passedByAll id a b (l.filter (·.1.worker == w)) = passedBetween id a b ((l.filter (·.1.worker == w)).map fun s => ⟨s.1.time, s.1.id, s.2⟩) := by
  unfold passedByAll passedBetween
  rw [List.filter_map, List.length_map]
  rfl

theorem passed_split (id : Str) (a b n : Nat) (l : List (Arrival × Bool)) (h : ∀ s ∈ l, s.1.worker < n) :
    passedByAll id a b l = ((List.range n).map fun w => passedByAll id a b (l.filter (·.1.worker == w))).sum := by
  induction l with
  | nil =>
    have : ∀ n, ((List.range n).map fun _ => 0).sum = 0 := by intro n; induction n <;> simp_all [List.range_succ]
    simpa [passedByAll] using (this n).symm
  | cons s l ih =>
    have ih := ih fun t ht => h t (by simp [ht])
    have hs := h s (by simp)
    have key : ∀ n, ((List.range n).map fun w => passedByAll id a b ((s :: l).filter (·.1.worker == w))).sum =
        ((List.range n).map fun w => passedByAll id a b (l.filter (·.1.worker == w))).sum + if s.1.worker < n then passedByAll id a b [s] else 0 := by
      intro n
      induction n with
      | zero => simp
      | succ n ihn =>
        simp only [List.range_succ, List.map_append, List.sum_append, List.map_cons, List.map_nil, List.sum_cons, List.sum_nil, Nat.add_zero]
        rw [ihn]
        by_cases hw : s.1.worker = n
        · simp only [List.filter_cons, hw, beq_self_eq_true, if_true, Nat.lt_irrefl, if_false, Nat.lt_succ_self]
          have : passedByAll id a b (s :: l.filter (·.1.worker == n)) = passedByAll id a b [s] + passedByAll id a b (l.filter (·.1.worker == n)) := by
            unfold passedByAll
            rw [← List.length_append, ← List.filter_append]
            rfl
          rw [this]
          omega
        · have hb : (s.1.worker == n) = false := by simpa using hw
          simp only [List.filter_cons, hb, Bool.false_eq_true, if_false]
          by_cases hl : s.1.worker < n
          · simp [hl, Nat.lt_succ_of_lt hl]; omega
          · have : ¬ s.1.worker < n + 1 := by omega
            simp [hl, this]
    rw [key n, if_pos hs, ← ih]
    unfold passedByAll
    rw [Nat.add_comm, ← List.length_append, ← List.filter_append]
    rfl

theorem runWorkers_worker (h : List Arrival) : ∀ stores, (runWorkers stores h).map (·.1) = h := by
  induction h with
  | nil => intro; rfl
  | cons r rest ih => intro stores; simp [runWorkers, ih]

/-- C114 with several workers: in any 60 seconds at most 199 requests of a client are passed on for each worker, whatever the scheduling. -/
theorem C114_workers (n : Nat) (id : Str) (h : List Arrival) (ht : h.Pairwise fun r s => r.time ≤ s.time) (hn : ∀ r ∈ h, r.worker < n) (a : Nat) :
    passedByAll id a (a + 60) (serveWorkers h) ≤ 199 * n := by
  have hm : ∀ s ∈ serveWorkers h, s.1.worker < n := by
    intro s hs
    apply hn
    rw [← runWorkers_worker h (fun _ _ => none)]
    exact List.mem_map_of_mem hs
  rw [passed_split id a (a + 60) n _ hm]
  have each : ∀ w, passedByAll id a (a + 60) ((serveWorkers h).filter (·.1.worker == w)) ≤ 199 := by
    intro w
    rw [passed_worker, serveWorkers, runWorkers_one]
    refine C114_limit_partial id _ ?_ a
    unfold Timely
    rw [List.pairwise_map]
    exact (ht.filter _)
  clear hm hn
  induction n with
  | zero => simp
  | succ n ih =>
    simp only [List.range_succ, List.map_append, List.sum_append, List.map_cons, List.map_nil, List.sum_cons, List.sum_nil, Nat.add_zero]
    have := each n
    omega

/-- For each worker below `n`, `k` requests at time `t`. -/
def Demo.wave (n k t : Nat) : List Arrival := (List.range n).flatMap fun w => List.replicate k ⟨t, w, str "a"⟩

/-- `Demo.burst` at every worker at the same time. -/
def Demo.flood (n : Nat) : List Arrival := Demo.wave n 1 0 ++ Demo.wave n 99 59 ++ Demo.wave n 101 60

theorem wave_mem {n k t : Nat} {r : Arrival} (h : r ∈ Demo.wave n k t) : r.time = t ∧ r.worker < n := by
  simp only [Demo.wave, List.mem_flatMap, List.mem_range, List.mem_replicate] at h
  obtain ⟨w, hw, -, rfl⟩ := h
  exact ⟨rfl, hw⟩

theorem wave_pairwise (n k t : Nat) : (Demo.wave n k t).Pairwise fun r s => r.time ≤ s.time := by
  rw [List.pairwise_iff_forall_sublist]
  intro r s h
  rw [(wave_mem (h.subset (by simp) : r ∈ _)).1, (wave_mem (h.subset (by simp) : s ∈ _)).1]
  exact Nat.le_refl t

theorem flood_timely (n : Nat) : (Demo.flood n).Pairwise fun r s => r.time ≤ s.time := by
  unfold Demo.flood
  rw [List.pairwise_append, List.pairwise_append]
  refine ⟨⟨wave_pairwise .., wave_pairwise .., fun r hr s hs => ?_⟩, wave_pairwise .., fun r hr s hs => ?_⟩
  · rw [(wave_mem hr).1]; omega
  · rw [(wave_mem hs).1]
    rcases List.mem_append.1 hr with hr | hr <;> rw [(wave_mem hr).1] <;> omega

theorem wave_filter (k t w : Nat) : ∀ n, w < n → ((Demo.wave n k t).filter (·.worker == w)).map (fun r => (r.time, r.id)) = List.replicate k (t, str "a") := by
  intro n
  have none_ : ∀ m, m ≤ w → (Demo.wave m k t).filter (·.worker == w) = [] := by
    intro m hm
    rw [List.filter_eq_nil_iff]
    intro r hr
    have := (wave_mem hr).2
    simp only [beq_iff_eq]
    omega
  induction n with
  | zero => intro h; omega
  | succ n ih =>
    intro h
    have e : Demo.wave (n + 1) k t = Demo.wave n k t ++ List.replicate k ⟨t, n, str "a"⟩ := by simp [Demo.wave, List.range_succ]
    rw [e, List.filter_append, List.map_append]
    by_cases hw : w = n
    · subst hw
      rw [none_ w (Nat.le_refl w), List.filter_eq_self.2 (by simp)]
      simp
    · rw [ih (by omega), List.filter_eq_nil_iff.2 (by simp; omega)]
      simp

/-- C114 fails with several workers: 199 requests for each worker are passed on within two seconds, so the more processors the server has, the higher is the limit. -/
theorem C114_workers_counterexample (n : Nat) :
    ((Demo.flood n).Pairwise fun r s => r.time ≤ s.time) ∧ (∀ r ∈ Demo.flood n, r.worker < n) ∧
    passedByAll (str "a") 59 61 (serveWorkers (Demo.flood n)) = 199 * n := by
  have hn : ∀ r ∈ Demo.flood n, r.worker < n := by
    intro r hr
    simp only [Demo.flood, List.mem_append] at hr
    rcases hr with (hr | hr) | hr <;> exact (wave_mem hr).2
  refine ⟨flood_timely n, hn, ?_⟩
  have hm : ∀ s ∈ serveWorkers (Demo.flood n), s.1.worker < n := by
    intro s hs
    apply hn
    rw [← runWorkers_worker (Demo.flood n) (fun _ _ => none)]
    exact List.mem_map_of_mem hs
  rw [passed_split (str "a") 59 61 n _ hm]
  have each : ∀ w < n, passedByAll (str "a") 59 61 ((serveWorkers (Demo.flood n)).filter (·.1.worker == w)) = 199 := by
    intro w hw
    rw [passed_worker, serveWorkers, runWorkers_one]
    have e : ((Demo.flood n).filter (·.worker == w)).map (fun r => (r.time, r.id)) = Demo.burst := by
      unfold Demo.flood
      rw [List.filter_append, List.filter_append, List.map_append, List.map_append, wave_filter _ _ _ n hw, wave_filter _ _ _ n hw, wave_filter _ _ _ n hw]
      rfl
    rw [e]
    exact C114_counterexample.2
  rw [List.map_congr_left (g := fun _ => 199) fun w hw => each w (List.mem_range.1 hw)]
  clear hn hm each
  induction n with
  | zero => rfl
  | succ n ih => rw [List.range_succ, List.map_append, List.sum_append, ih]; simp; omega

end Prexel

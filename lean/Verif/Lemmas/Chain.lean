import Verif.Spec.Chain
/-!
# Existence and uniqueness of the tree of a chain
-/

set_option linter.unusedVariables false
set_option linter.unusedSimpArgs false

namespace Prexel
variable {N : Type}

theorem Frontier.render {e x : Expr N} {xs : List (Str × Expr N)} (h : Frontier e x xs) : e.render = chainTokens x xs := by
  induction h with
  | leaf x h => simp [chainTokens]
  | node o hl hr ihl ihr => simp [Expr.render, ihl, ihr, chainTokens]

theorem primary_rightSpine {x : Expr N} (h : x.primary) : x.rightSpine = [] := by
  cases x <;> simp_all [Expr.primary, Expr.rightSpine]

theorem primary_leftSpine {x : Expr N} (h : x.primary) : x.leftSpine = [] := by
  cases x <;> simp_all [Expr.primary, Expr.leftSpine]

theorem snoc_induction {α : Type} {motive : List α → Prop} (l : List α) (nil : motive [])
    (append_singleton : ∀ (l : List α) (a : α), motive l → motive (l ++ [a])) : motive l := by
  rw [← List.reverse_reverse l]
  induction l.reverse with
  | nil => exact nil
  | cons a l ih => rw [List.reverse_cons]; exact append_singleton _ _ ih

open Classical in
/-- The tree of a chain with one more operator and operand. -/
noncomputable def insertOp (ctx : Ctx N) (o : Str) (x : Expr N) : Expr N → Expr N
  | .bin p l r => if GroupsLeft ctx p o then .bin o (.bin p l r) x else .bin p l (insertOp ctx o x r)
  | e => .bin o e x

theorem insertOp_bin_pos {ctx : Ctx N} {o p : Str} {x l r : Expr N} (h : GroupsLeft ctx p o) :
    insertOp ctx o x (.bin p l r) = .bin o (.bin p l r) x := by simp [insertOp, h]

theorem insertOp_bin_neg {ctx : Ctx N} {o p : Str} {x l r : Expr N} (h : ¬ GroupsLeft ctx p o) :
    insertOp ctx o x (.bin p l r) = .bin p l (insertOp ctx o x r) := by simp [insertOp, h]

theorem insertOp_primary {ctx : Ctx N} {o : Str} {x e : Expr N} (h : e.primary) :
    insertOp ctx o x e = .bin o e x := by
  cases e <;> simp_all [Expr.primary, insertOp]

/-- If `p` does not take from `q` and `p` groups left of `o`, then `q` groups left of `o`. -/
theorem GroupsLeft.trans {ctx : Ctx N} {p q o : Str} (hq : (ctx.getBinary q).isSome) (hpq : ¬ GroupsLeft ctx p q)
    (hpo : GroupsLeft ctx p o) : GroupsLeft ctx q o := by
  obtain ⟨fp, fo, hp, ho, h⟩ := hpo
  obtain ⟨fq, hq⟩ := Option.isSome_iff_exists.1 hq
  refine ⟨fq, fo, hq, ho, ?_⟩
  have h2 : ¬ (fq.prec < fp.prec ∨ (fp.prec = fq.prec ∧ fp.assoc = .left)) := fun h => hpq ⟨fp, fq, hp, hq, h⟩
  rcases Nat.lt_trichotomy fq.prec fp.prec with h3 | h3 | h3
  · exact absurd (Or.inl h3) h2
  · rcases h with h | ⟨h, h'⟩
    · left; omega
    · exact absurd (Or.inr ⟨h3.symm, h'⟩) h2
  · rcases h with h | ⟨h, h'⟩ <;> (left; omega)

theorem Frontier.ops_registered {ctx : Ctx N} {p : Str} {l r : Expr N}
    (h : (Expr.bin p l r).WF ctx) : (ctx.getBinary p).isSome := by
  obtain ⟨f, hf⟩ := h.1
  simp [hf]

/-- If the root groups left of `o`, so does the whole right spine. -/
theorem spine_groups {ctx : Ctx N} {e x : Expr N} {xs : List (Str × Expr N)} (hf : Frontier e x xs) (hwf : e.WF ctx)
    {o : Str} (hroot : ∀ p l r, e = .bin p l r → GroupsLeft ctx p o) :
    ∀ a ∈ e.rightSpine, ∃ b, a = .bin b ∧ GroupsLeft ctx b o := by
  induction hf with
  | leaf x h => simp [primary_rightSpine h]
  | node p hl hr ihl ihr =>
    intro a ha
    simp only [Expr.rightSpine, List.mem_append, List.mem_singleton] at ha
    rcases ha with ha | rfl
    · refine ihr hwf.2.2.2.2 ?_ a ha
      intro q l' r' hq
      subst hq
      refine GroupsLeft.trans (p := p) ?_ (hwf.2.2.1 q (by simp [Expr.leftSpine])) (hroot _ _ _ rfl)
      obtain ⟨f, hf⟩ := hwf.2.2.2.2.1
      simp [hf]
    · exact ⟨p, rfl, hroot _ _ _ rfl⟩

theorem insertOp_leftSpine (ctx : Ctx N) (o : Str) (x : Expr N) {e y : Expr N} {ys : List (Str × Expr N)}
    (hf : Frontier e y ys) :
    (∀ q ∈ (insertOp ctx o x e).leftSpine, q ∈ e.leftSpine ∨ (q = o ∧ ∀ p l r, e = .bin p l r → GroupsLeft ctx p o)) ∧
    (∀ q ∈ e.leftSpine, q ∈ (insertOp ctx o x e).leftSpine) := by
  cases hf with
  | leaf _ h =>
    rw [insertOp_primary h]
    refine ⟨?_, by simp [primary_leftSpine h]⟩
    intro q hq
    simp [Expr.leftSpine, primary_leftSpine h] at hq
    right
    refine ⟨hq, ?_⟩
    intro p l r h'; subst h'; simp [Expr.primary] at h
  | node p hl hr =>
    by_cases hg : GroupsLeft ctx p o
    · rw [insertOp_bin_pos hg]
      constructor
      · intro q hq
        simp [Expr.leftSpine] at hq ⊢
        rcases hq with hq | hq | hq
        · exact .inl (.inl hq)
        · exact .inl (.inr hq)
        · right; exact ⟨hq, hg⟩
      · intro q hq
        simp [Expr.leftSpine] at hq ⊢
        rcases hq with hq | hq
        · exact .inl hq
        · exact .inr (.inl hq)
    · rw [insertOp_bin_neg hg]
      exact ⟨fun q hq => .inl (by simpa [Expr.leftSpine] using hq), fun q hq => by simpa [Expr.leftSpine] using hq⟩

theorem insertOp_frontier (ctx : Ctx N) (o : Str) (x : Expr N) (hx : x.primary) {e y : Expr N} {ys : List (Str × Expr N)}
    (hf : Frontier e y ys) : Frontier (insertOp ctx o x e) y (ys ++ [(o, x)]) := by
  induction hf with
  | leaf z h =>
    rw [insertOp_primary h]
    exact .node o (.leaf _ h) (.leaf _ hx)
  | node p hl hr ihl ihr =>
    by_cases hg : GroupsLeft ctx p o
    · rw [insertOp_bin_pos hg]
      exact .node o (.node p hl hr) (.leaf _ hx)
    · rw [insertOp_bin_neg hg]
      simpa using Frontier.node p hl ihr

theorem insertOp_wf (ctx : Ctx N) (o : Str) (ho : (ctx.getBinary o).isSome) (x : Expr N) (hx : x.primary) (hxw : x.WF ctx)
    {e y : Expr N} {ys : List (Str × Expr N)} (hf : Frontier e y ys) (hwf : e.WF ctx) : (insertOp ctx o x e).WF ctx := by
  obtain ⟨fo, hfo⟩ := Option.isSome_iff_exists.1 ho
  induction hf with
  | leaf z h =>
    rw [insertOp_primary h]
    exact ⟨⟨fo, hfo⟩, by simp [primary_rightSpine h], by simp [primary_leftSpine hx], hwf, hxw⟩
  | @node l r a b xs ys p hl hr ihl ihr =>
    by_cases hg : GroupsLeft ctx p o
    · rw [insertOp_bin_pos hg]
      refine ⟨⟨fo, hfo⟩, ?_, by simp [primary_leftSpine hx], hwf, hxw⟩
      exact spine_groups (.node p hl hr) hwf (by rintro p' l' r' h; cases h; exact hg)
    · rw [insertOp_bin_neg hg]
      refine ⟨hwf.1, hwf.2.1, ?_, hwf.2.2.2.1, ihr hwf.2.2.2.2⟩
      intro q hq
      rcases (insertOp_leftSpine ctx o x hr).1 q hq with h | ⟨rfl, _⟩
      · exact hwf.2.2.1 q h
      · exact hg

theorem snoc_inj {α : Type} {l l' : List α} {a a' : α} (h : l ++ [a] = l' ++ [a']) : l = l' ∧ a = a' := by
  have := List.append_inj' h rfl
  simpa using this

theorem Frontier.nil_inv {e y : Expr N} (h : Frontier e y []) : e = y ∧ e.primary := by
  generalize hz : ([] : List (Str × Expr N)) = zs at h
  cases h with
  | leaf _ h => exact ⟨rfl, h⟩
  | node o hl hr => simp at hz

/-- Every well-formed tree of a chain with at least one operator comes from `insertOp`. -/
theorem exists_insertOp (ctx : Ctx N) {e y : Expr N} {zs : List (Str × Expr N)} (hf : Frontier e y zs) (hwf : e.WF ctx) :
    ∀ ys o x, zs = ys ++ [(o, x)] → ∃ e', Frontier e' y ys ∧ e'.WF ctx ∧ e = insertOp ctx o x e' := by
  induction hf with
  | leaf z h => intro ys o x h'; simp at h'
  | @node l r a b xs ys p hl hr ihl ihr =>
    intro zs o x heq
    induction ys using snoc_induction with
    | nil =>
      obtain ⟨h1, h2⟩ := snoc_inj (l := xs) heq
      cases h2; subst h1
      obtain ⟨rfl, hb⟩ := hr.nil_inv
      refine ⟨l, hl, hwf.2.2.2.1, ?_⟩
      cases hl with
      | leaf _ h => rw [insertOp_primary h]
      | node q h1 h2 =>
        rw [insertOp_bin_pos]
        obtain ⟨b, hb', hg⟩ := hwf.2.1 (.bin q) (by simp [Expr.rightSpine])
        cases hb'; exact hg
    | append_singleton ys t _ =>
      rw [show xs ++ (p, b) :: (ys ++ [t]) = (xs ++ (p, b) :: ys) ++ [t] by simp] at heq
      obtain ⟨h1, h2⟩ := snoc_inj heq
      subst h2
      obtain ⟨r', hfr', hwr', hr'⟩ := ihr hwf.2.2.2.2 ys o x rfl
      have hng : ¬ GroupsLeft ctx p o := by
        intro hg
        subst hr'
        cases hfr' with
        | leaf _ hb =>
          rw [insertOp_primary hb] at hwf
          exact hwf.2.2.1 o (by simp [Expr.leftSpine]) hg
        | node q h3 h4 =>
          have hpq : ¬ GroupsLeft ctx p q := hwf.2.2.1 q ((insertOp_leftSpine ctx o x (.node q h3 h4)).2 q (by simp [Expr.leftSpine]))
          have hqo : GroupsLeft ctx q o := GroupsLeft.trans (Frontier.ops_registered hwr') hpq hg
          rw [insertOp_bin_pos hqo] at hwf
          exact hwf.2.2.1 o (by simp [Expr.leftSpine]) hg
      refine ⟨.bin p l r', ?_, ?_, ?_⟩
      · rw [← h1]; exact .node p hl hfr'
      · refine ⟨hwf.1, hwf.2.1, ?_, hwf.2.2.2.1, hwr'⟩
        intro q hq
        refine hwf.2.2.1 q ?_
        rw [hr']
        exact (insertOp_leftSpine ctx o x hfr').2 q hq
      · rw [insertOp_bin_neg hng, hr']

theorem chain_tree (ctx : Ctx N) (x : Expr N) (hx : x.primary) (hxw : x.WF ctx) (xs : List (Str × Expr N))
    (hxs : ∀ p ∈ xs, (ctx.getBinary p.1).isSome ∧ p.2.primary ∧ p.2.WF ctx) :
    ∃ e : Expr N, (Frontier e x xs ∧ e.WF ctx) ∧ ∀ e', Frontier e' x xs → e'.WF ctx → e' = e := by
  induction xs using snoc_induction with
  | nil =>
    refine ⟨x, ⟨.leaf x hx, hxw⟩, ?_⟩
    intro e' h _
    exact h.nil_inv.1
  | append_singleton xs p ih =>
    obtain ⟨e, ⟨hf, hw⟩, hu⟩ := ih (fun q hq => hxs q (by simp [hq]))
    obtain ⟨h1, h2, h3⟩ := hxs p (by simp)
    refine ⟨insertOp ctx p.1 p.2 e, ⟨insertOp_frontier ctx p.1 p.2 h2 hf, insertOp_wf ctx p.1 h1 p.2 h2 h3 hf hw⟩, ?_⟩
    intro e' hf' hw'
    obtain ⟨e'', hf'', hw'', rfl⟩ := exists_insertOp ctx hf' hw' xs p.1 p.2 rfl
    rw [hu e'' hf'' hw'']

end Prexel

import Verif.Lemmas.Simulation
import Verif.Props.Integer
import Verif.Lemmas.Values
/-!
# Lemmas: built-in contexts over related number types are related
-/

set_option linter.unusedVariables false
set_option linter.unusedSimpArgs false

namespace Prexel
variable {N M F : Type} {R : N → M → Prop} {slack : Slack}

/-! ## Values -/

/-- The same keys with related values. -/
abbrev MapRel (R : N → M → Prop) : Map N → Map M → Prop := Pairwise2 fun e e' => e.1 = e'.1 ∧ R e.2 e'.2

theorem MapRel.get {m : Map N} {m' : Map M} (h : MapRel R m m') (same : Str → Str → Bool) (k : Str) :
    Both R (Map.get same m k) (Map.get same m' k) := by
  induction h with
  | nil => exact .none
  | @cons a b l l' hab hl ih =>
    obtain ⟨x, v⟩ := a
    obtain ⟨y, w⟩ := b
    obtain ⟨rfl, hv⟩ := hab
    rw [Map.get_cons, Map.get_cons]
    split
    · exact .some hv
    · exact ih

theorem Both.isSome {α β : Type} {R : α → β → Prop} {x : Option α} {y : Option β} (h : Both R x y) : x.isSome = y.isSome := by
  cases h <;> rfl

theorem MapRel.insert {m : Map N} {m' : Map M} (h : MapRel R m m') (same : Str → Str → Bool) (k : Str) {v : N} {w : M} (hv : R v w) :
    MapRel R (Map.insert same m k v) (Map.insert same m' k w) := by
  unfold Map.insert Map.containsKey
  rw [(h.get same k).isSome]
  split
  · rename_i hx
    clear hx
    induction h with
    | nil => exact .nil
    | @cons a b l l' hab hl ih =>
      refine .cons ?_ ih
      simp only [hab.1]
      split
      · exact ⟨rfl, hv⟩
      · exact hab
  · rename_i hx
    clear hx
    induction h with
    | nil => exact .cons ⟨rfl, hv⟩ .nil
    | cons hab hl ih => exact .cons hab ih

theorem MapRel.keys {m : Map N} {m' : Map M} (h : MapRel R m m') : Map.keys m = Map.keys m' := by
  induction h with
  | nil => rfl
  | cons hab hl ih =>
    simp only [Map.keys, List.map_cons] at ih ⊢
    rw [hab.1, ih]

/-- Contexts with related variables and constants. -/
structure ValRel (R : N → M → Prop) (c : Context N) (d : Context M) : Prop where
  variables : MapRel R c.variables d.variables
  constants : MapRel R c.constants d.constants

theorem SameChecks.check {debug debug' : Bool} {o : Op N} {os : List (Op N)} (h : SameChecks debug debug' (o :: os)) :
    debugCheck debug o.name = debugCheck debug' o.name ∧ SameChecks debug debug' os := by
  rcases h with rfl | h
  · exact ⟨rfl, .inl rfl⟩
  · refine ⟨?_, .inr fun o ho => h o (by simp [ho])⟩
    have := checkTokenName_ok.mpr (h o (by simp))
    cases debug <;> cases debug' <;> simp [debugCheck, this]

theorem ValRel.run (K : Keys) {debug debug' : Bool} {c : Context N} {d : Context M} (h : ValRel R c d) {o : Op N} {o' : Op M} (ho : OpRel R o o')
    (hd : debugCheck debug o.name = debugCheck debug' o.name) :
    ValRel R (c.run K debug o).2 (d.run K debug' o').2 ∧ Lift (Both R) .none (c.run K debug o).1 (d.run K debug' o').1 := by
  cases ho with
  | setVariable s hv =>
    simp only [Context.run, h.constants.keys]
    rw [show debugCheck debug s = debugCheck debug' s from hd]
    cases debugCheck debug' s with
    | err k => exact ⟨h, .err k⟩
    | panic => exact ⟨h, .panic⟩
    | ok u =>
      simp only
      split
      · exact ⟨h, .err _⟩
      · exact ⟨⟨h.variables.insert _ _ hv, h.constants⟩, .ok (h.variables.get _ _)⟩
  | addConstant s hv =>
    simp only [Context.run, h.variables.keys]
    rw [show debugCheck debug s = debugCheck debug' s from hd]
    cases debugCheck debug' s with
    | err k => exact ⟨h, .err k⟩
    | panic => exact ⟨h, .panic⟩
    | ok u =>
      simp only
      split
      · exact ⟨h, .err _⟩
      · exact ⟨⟨h.variables, h.constants.insert _ _ hv⟩, .ok .none⟩

theorem ValRel.runAll (K : Keys) {debug debug' : Bool} {os : List (Op N)} {os' : List (Op M)} (ho : Pairwise2 (OpRel R) os os')
    (hd : SameChecks debug debug' os) {c : Context N} {d : Context M} (h : ValRel R c d) :
    ValRel R (c.runAll K debug os) (d.runAll K debug' os') := by
  induction ho generalizing c d with
  | nil => exact h
  | cons ho hos ih => exact ih hd.check.2 (h.run K ho hd.check.1).1

theorem Pairwise2.onlyValues {os : List (Op N)} {os' : List (Op M)} (ho : Pairwise2 (OpRel R) os os') :
    OnlyValues os ∧ OnlyValues os' := by
  induction ho with
  | nil => exact ⟨fun _ h => by simp at h, fun _ h => by simp at h⟩
  | cons ho hos ih =>
    obtain ⟨h1, h2⟩ := ih
    constructor
    · intro o hm
      rcases List.mem_cons.mp hm with rfl | hm
      · cases ho with
        | setVariable s hv => exact .inl ⟨_, _, rfl⟩
        | addConstant s hv => exact .inr ⟨_, _, rfl⟩
      · exact h1 o hm
    · intro o hm
      rcases List.mem_cons.mp hm with rfl | hm
      · cases ho with
        | setVariable s hv => exact .inl ⟨_, _, rfl⟩
        | addConstant s hv => exact .inr ⟨_, _, rfl⟩
      · exact h2 o hm

theorem runUnwrap_append (K : Keys) (debug : Bool) (c : Context N) (os os' : List (Op N)) :
    c.runUnwrap K debug (os ++ os') = (c.runUnwrap K debug os).bind fun c => c.runUnwrap K debug os' := by
  induction os generalizing c with
  | nil => rfl
  | cons o os ih =>
    simp only [List.cons_append, Context.runUnwrap]
    split
    · exact ih _
    · rfl

/-- The constants of a built context are those of the constant operations. -/
theorem build_values (K : Keys) (debug : Bool) {config : Config} {cs : List (Str × N)} {bs : List (Named (BinFn N))}
    {us : List (Named (UnFn N))} {fs : List (Named (Fn N))} {c : Context N}
    (h : (Context.withConfig config).runUnwrap K debug (buildOps cs bs us fs) = .ok c) :
    ∃ c0, (Context.withConfig config).runUnwrap K debug (cs.map fun e => Op.addConstant e.1 e.2) = .ok c0 ∧
      c.variables = c0.variables ∧ c.constants = c0.constants := by
  unfold buildOps at h
  rw [runUnwrap_append] at h
  cases h0 : (Context.withConfig config).runUnwrap K debug (cs.map fun e => Op.addConstant e.1 e.2) with
  | err k => rw [h0] at h; cases h
  | panic => rw [h0] at h; cases h
  | ok c0 =>
    refine ⟨c0, rfl, ?_⟩
    rw [h0, Res.bind_ok, runUnwrap_binary] at h
    cases h1 : addAll K.same debug c0.binary bs with
    | err k => rw [h1] at h; cases h
    | panic => rw [h1] at h; cases h
    | ok mb =>
      rw [h1, Res.bind_ok, runUnwrap_unary] at h
      cases h2 : addAll K.same debug c0.unary us with
      | err k => rw [h2] at h; cases h
      | panic => rw [h2] at h; cases h
      | ok mu =>
        rw [h2, Res.bind_ok] at h
        have h3 := runUnwrap_functions K debug { { c0 with binary := mb } with unary := mu } fs []
        rw [List.append_nil] at h3
        rw [h3] at h
        cases h4 : addAll K.same debug c0.functions fs with
        | err k => simp [h4] at h
        | panic => simp [h4] at h
        | ok mf =>
          simp only [h4, Res.bind_ok, Context.runUnwrap, Res.ok.injEq] at h
          subst h
          exact ⟨rfl, rfl⟩

theorem runUnwrap_ok (K : Keys) (debug : Bool) {c c' : Context N} {os : List (Op N)} (h : c.runUnwrap K debug os = .ok c') :
    c' = c.runAll K debug os := by
  induction os generalizing c with
  | nil => simp only [Context.runUnwrap, Res.ok.injEq] at h; exact h.symm
  | cons o os ih =>
    simp only [Context.runUnwrap] at h
    split at h
    · rename_i heq
      rw [ih h, Context.runAll, heq]
    · cases h

theorem build_valRel (K : Keys) {debug debug' : Bool} {config config' : Config} {pi e : N} {pi' e' : M} (hpi : R pi pi') (he : R e e')
    {bs : List (Named (BinFn N))} {us : List (Named (UnFn N))} {fs : List (Named (Fn N))} {c : Context N}
    {bs' : List (Named (BinFn M))} {us' : List (Named (UnFn M))} {fs' : List (Named (Fn M))} {d : Context M}
    (h : (Context.withConfig config).runUnwrap K debug (buildOps [(str "PI", pi), (str "E", e)] bs us fs) = .ok c)
    (h' : (Context.withConfig config').runUnwrap K debug' (buildOps [(str "PI", pi'), (str "E", e')] bs' us' fs') = .ok d) : ValRel R c d := by
  obtain ⟨c0, hc0, hc1, hc2⟩ := build_values K debug h
  obtain ⟨d0, hd0, hd1, hd2⟩ := build_values K debug' h'
  have hv : SameChecks debug debug' [Op.addConstant (str "PI") pi, Op.addConstant (str "E") e] := by
    refine .inr fun o ho => ?_
    simp only [List.mem_cons, List.not_mem_nil, or_false] at ho
    rcases ho with rfl | rfl
    · exact checkTokenName_ok.mp (show checkTokenName (str "PI") = .ok () by decide)
    · exact checkTokenName_ok.mp (show checkTokenName (str "E") = .ok () by decide)
  have := ValRel.runAll K (debug := debug) (debug' := debug') (c := (Context.withConfig config : Context N)) (d := (Context.withConfig config' : Context M))
    (.cons (.addConstant (str "PI") hpi) (.cons (.addConstant (str "E") he) .nil)) hv ⟨.nil, .nil⟩
  have e1 := runUnwrap_ok K debug hc0
  have e2 := runUnwrap_ok K debug' hd0
  simp only [List.map_cons, List.map_nil] at e1 e2
  rw [← e1, ← e2] at this
  exact ⟨by rw [hc1, hd1]; exact this.variables, by rw [hc2, hd2]; exact this.constants⟩

/-! ## Tables -/

theorem lookup_rel {V W : Type} {Rel : V → W → Prop} {fs : List (Named V)} {gs : List (Named W)} (hf : GoodNames (fs.flatMap Named.names))
    (h : ∀ g ∈ gs, ∃ f ∈ fs, f.names = g.names ∧ Rel f.fn g.fn) (k : Str) {v : W} (hv : lookup hashSame gs k = some v) :
    ∃ u, lookup hashSame fs k = some u ∧ Rel u v := by
  obtain ⟨g, hg, rfl, n, hn, hnk⟩ := lookup_some hv
  obtain ⟨f, hf', hnames, hrel⟩ := h g hg
  exact ⟨f.fn, lookup_mem hf hf' (hnames ▸ hn) (by simpa [hashSame] using hnk), hrel⟩

/-- The same names in the same order, with related functions. -/
abbrev TableRel {V W : Type} (Rel : V → W → Prop) : List (Named V) → List (Named W) → Prop :=
  Pairwise2 fun f g => f.names = g.names ∧ Rel f.fn g.fn

theorem TableRel.lookup {V W : Type} {Rel : V → W → Prop} {fs : List (Named V)} {gs : List (Named W)} (h : TableRel Rel fs gs)
    (same : Str → Str → Bool) (k : Str) : Both Rel (lookup same fs k) (lookup same gs k) := by
  induction h with
  | nil => exact .none
  | @cons f g fs gs hfg _ ih =>
    unfold Prexel.lookup
    rw [List.find?_cons, List.find?_cons, hfg.1]
    cases g.names.any fun x => same x k with
    | true => exact .some hfg.2
    | false => exact ih

/-- Like `TableRel`, but nothing is said about functions with one of the names in `bad` and no other. -/
abbrev TableRelExcept {V W : Type} (Rel : V → W → Prop) (bad : List Str) : List (Named V) → List (Named W) → Prop :=
  Pairwise2 fun f g => f.names = g.names ∧ ((∃ n ∈ bad, g.names = [n]) ∨ Rel f.fn g.fn)

theorem TableRelExcept.lookup {V W : Type} {Rel : V → W → Prop} {bad : List Str} {fs : List (Named V)} {gs : List (Named W)}
    (h : TableRelExcept Rel bad fs gs) (k : Str) (hk : ∀ n ∈ bad, ¬ CaseVariant n k) :
    Both Rel (lookup hashSame fs k) (lookup hashSame gs k) := by
  induction h with
  | nil => exact .none
  | @cons f g fs gs hfg _ ih =>
    unfold Prexel.lookup
    rw [List.find?_cons, List.find?_cons, hfg.1]
    cases hany : g.names.any fun x => hashSame x k with
    | true =>
      rcases hfg.2 with ⟨n, hn, hg⟩ | hr
      · rw [hg] at hany
        simp [hashSame, hashInput] at hany
        exact absurd hany (hk n hn)
      · exact .some hr
    | false => exact ih

/-! ## Functions -/

theorem Lift.refl {α : Type} (x : Res α) : Lift Eq slack x x := by
  cases x with
  | ok v => exact .ok rfl
  | err k => exact .err k
  | panic => exact .panic

theorem foldArgs_sim {f : N → N → Res N} {g : M → M → Res M} (hf : ∀ x y x' y', R x y → R x' y' → Lift R slack (f x x') (g y y'))
    {xs : List N} {ys : List M} (h : Pairwise2 R xs ys) {acc : Option N} {acc' : Option M} (ha : Both R acc acc') :
    Lift (Both R) slack (Ops.foldArgs f acc xs) (Ops.foldArgs g acc' ys) := by
  induction h generalizing acc acc' with
  | nil =>
    cases ha with
    | none => exact .ok .none
    | some h => exact .ok (.some h)
  | cons h hs ih =>
    cases ha with
    | none => exact ih (.some h)
    | some ha => exact (hf _ _ _ _ ha h).bind fun _ _ h => ih (.some h)

theorem best_sim {f : N → N → Bool} {g : M → M → Bool} (hf : ∀ x y x' y', R x y → R x' y' → f x x' = g y y')
    {xs : List N} {ys : List M} (h : Pairwise2 R xs ys) {acc : Option N} {acc' : Option M} (ha : Both R acc acc') :
    Both R (Ops.best f acc xs) (Ops.best g acc' ys) := by
  induction h generalizing acc acc' with
  | nil => cases ha with
    | none => exact .none
    | some h => exact .some h
  | cons h hs ih =>
    cases ha with
    | none => exact ih (.some h)
    | some ha =>
      refine ih (.some ?_)
      rw [hf _ _ _ _ h ha]
      split
      · exact h
      · exact ha

variable {f : F64 F} {a : Num N F} {b : Num M F}

theorem one_sim {g : N → Res N} {g' : M → Res M} (h : ∀ x y, R x y → Lift R slack (g x) (g' y)) :
    FnRel R slack (fun | [x] => g x | _ => .err .invalidArgumentCount) (fun | [x] => g' x | _ => .err .invalidArgumentCount) := by
  intro xs ys hxs
  cases hxs with
  | nil => exact .err _
  | cons hx hxs =>
    cases hxs with
    | nil => exact h _ _ hx
    | cons _ _ => exact .err _

theorem tryToFloat_sim (h : NumRel R slack a b) {x : N} {y : M} (hx : R x y) : Ops.tryToFloat f a x = Ops.tryToFloat f b y := by
  unfold Ops.tryToFloat
  rw [h.toF64 _ _ hx]

theorem forward_sim (h : NumRel R slack a b) (name : Str) (g : F → F) :
    FnRel R slack (Ops.forward f a name g).fn (Ops.forward f b name g).fn := by
  refine one_sim fun x y hx => ?_
  rw [tryToFloat_sim h hx]
  exact (Lift.refl _).bind fun v w hv => by subst hv; exact h.fromF64 _

theorem finite_sim (h : NumRel R slack a b) (v : Option F) : Lift R slack (Ops.finite f a v) (Ops.finite f b v) := by
  cases v with
  | none => exact .err _
  | some v =>
    simp only [Ops.finite]
    split
    · exact .err _
    · exact h.fromF64 _

theorem viaFloat_sim (h : NumRel R slack a b) (name : Str) (g : F → F) :
    FnRel R slack (Ops.viaFloat f a name g).fn (Ops.viaFloat f b name g).fn := by
  refine one_sim fun x y hx => ?_
  rw [h.toF64 _ _ hx]
  exact finite_sim h _

theorem log_sim (h : NumRel R slack a b) : FnRel R slack (Ops.log f a).fn (Ops.log f b).fn := by
  intro xs ys hxs
  cases hxs with
  | nil => exact .err _
  | cons hx hxs =>
    cases hxs with
    | nil => simp only [Ops.log, h.toF64 _ _ hx]; exact finite_sim h _
    | cons hx' hxs =>
      cases hxs with
      | nil => simp only [Ops.log, h.toF64 _ _ hx, h.toF64 _ _ hx']; exact finite_sim h _
      | cons _ _ => exact .err _

theorem random_sim (h : NumRel R slack a b) : FnRel R slack (Ops.random f a).fn (Ops.random f b).fn := by
  intro xs ys hxs
  cases hxs with
  | nil => exact h.fromF64 _
  | cons hx hxs =>
    cases hxs with
    | nil =>
      simp only [Ops.random, tryToFloat_sim h hx]
      refine (Lift.refl _).bind fun v w hv => ?_
      subst hv
      split
      · exact .err _
      · exact h.fromF64 _
    | cons hx' hxs =>
      cases hxs with
      | nil =>
        simp only [Ops.random, tryToFloat_sim h hx, tryToFloat_sim h hx']
        refine (Lift.refl _).bind fun v w hv => (Lift.refl _).bind fun v' w' hv' => ?_
        subst hv hv'
        split
        · exact .err _
        · exact h.fromF64 _
      | cons _ _ => exact .err _

theorem atan_sim (h : NumRel R slack a b) : FnRel R slack (Ops.atan f a).fn (Ops.atan f b).fn := by
  intro xs ys hxs
  cases hxs with
  | nil => exact .err _
  | cons hx hxs =>
    cases hxs with
    | nil => simp only [Ops.atan, h.toF64 _ _ hx]; exact finite_sim h _
    | cons hx' hxs =>
      cases hxs with
      | nil =>
        simp only [Ops.atan, h.toF64 _ _ hx, h.toF64 _ _ hx']
        split
        · split
          · exact .err _
          · exact finite_sim h _
        · exact .err _
      | cons _ _ => exact .err _

theorem extremum_sim {p : N → N → Bool} {q : M → M → Bool} (hf : ∀ x y x' y', R x y → R x' y' → p x x' = q y y') :
    FnRel R slack (Ops.extremum p) (Ops.extremum q) := by
  intro xs ys hxs
  simp only [Ops.extremum, hxs.length]
  split
  · exact .err _
  · exact (best_sim hf hxs .none).lift _

theorem sum_sim {g : N → N → Res N} {g' : M → M → Res M} (hf : ∀ x y x' y', R x y → R x' y' → Lift R slack (g x x') (g' y y')) :
    FnRel R slack (fun args => Ops.orArgumentCount (Ops.foldArgs g none args)) (fun args => Ops.orArgumentCount (Ops.foldArgs g' none args)) :=
  fun xs ys hxs => (foldArgs_sim hf hxs .none).bind fun _ _ h => h.lift _

/-- `avg` for any addition and division. -/
theorem avg_sim (h : NumRel R slack a b) {g : N → N → Res N} {g' : M → M → Res M} {q : N → N → Res N} {q' : M → M → Res M}
    (hf : ∀ x y x' y', R x y → R x' y' → Lift R slack (g x x') (g' y y'))
    (hq : ∀ x y x' y', R x y → R x' y' → Lift R slack (q x x') (q' y y')) :
    FnRel R slack
      (fun args => (Ops.foldArgs g none args).bind fun
        | some n => (match a.fromUsize args.length with | some k => q n k | none => .panic)
        | none => .err .invalidArgumentCount)
      (fun args => (Ops.foldArgs g' none args).bind fun
        | some n => (match b.fromUsize args.length with | some k => q' n k | none => .panic)
        | none => .err .invalidArgumentCount) := by
  intro xs ys hxs
  refine (foldArgs_sim hf hxs .none).bind fun o o' ho => ?_
  cases ho with
  | none => exact .err _
  | some hn =>
    simp only [hxs.length]
    have := h.fromUsize ys.length
    cases h1 : a.fromUsize ys.length with
    | none =>
      cases h2 : b.fromUsize ys.length with
      | none => exact .panic
      | some k =>
        rw [h1, h2] at this
        cases this with
        | anyErr _ _ hs => exact .anyPanic _ (by rw [hs]; decide)
    | some k =>
      cases h2 : b.fromUsize ys.length with
      | none => rw [h1, h2] at this; cases this
      | some k' =>
        rw [h1, h2] at this
        cases this with
        | ok hk => exact hq _ _ _ _ hn hk

theorem trigFunctions_sim (h : NumRel R slack a b) : TableRel (FnRel R slack) (Ops.trigFunctions f a) (Ops.trigFunctions f b) := by
  unfold Ops.trigFunctions
  repeat' first
    | exact .nil
    | exact ⟨rfl, forward_sim h _ _⟩
    | exact ⟨rfl, viaFloat_sim h _ _⟩
    | exact ⟨rfl, atan_sim h⟩
    | apply Pairwise2.cons

theorem checkedFunctions_sim (docs : Bool) (h : NumRel R slack a b) (hc : CheckedRel R slack a b) :
    TableRel (FnRel R slack) (Ops.checkedFunctions docs f a) (Ops.checkedFunctions docs f b) := by
  unfold Ops.checkedFunctions
  refine Pairwise2.append2 ?_ (trigFunctions_sim h)
  refine .cons ⟨rfl, sum_sim hc.add⟩ (.cons ⟨rfl, sum_sim hc.mul⟩ (.cons ⟨rfl, avg_sim h hc.add hc.div⟩ (.cons ⟨rfl, ?_⟩
    (.cons ⟨rfl, extremum_sim h.lt⟩ (.cons ⟨rfl, ?_⟩ ?_)))))
  · exact extremum_sim fun x y x' y' hx hx' => h.lt _ _ _ _ hx' hx
  · refine one_sim fun x y hx => ?_
    rw [h.ge _ _ _ _ hx h.zero]
    split
    · exact .ok hx
    · exact hc.neg _ _ hx
  · repeat' first
      | exact .nil
      | exact ⟨rfl, forward_sim h _ _⟩
      | exact ⟨rfl, log_sim h⟩
      | exact ⟨rfl, random_sim h⟩
      | apply Pairwise2.cons

theorem uncheckedFunctions_sim (h : NumRel R slack a b) (hc : PlainRel R slack a b) :
    TableRel (FnRel R slack) (Ops.uncheckedFunctions f a) (Ops.uncheckedFunctions f b) := by
  unfold Ops.uncheckedFunctions
  refine Pairwise2.append2 ?_ (trigFunctions_sim h)
  refine .cons ⟨rfl, sum_sim hc.add⟩ (.cons ⟨rfl, avg_sim h hc.add hc.div⟩ (.cons ⟨rfl, sum_sim hc.mul⟩ (.cons ⟨rfl, ?_⟩
    (.cons ⟨rfl, extremum_sim h.lt⟩ ?_))))
  · exact extremum_sim fun x y x' y' hx hx' => h.lt _ _ _ _ hx' hx
  · repeat' first
      | exact .nil
      | exact ⟨rfl, forward_sim h _ _⟩
      | exact ⟨rfl, log_sim h⟩
      | exact ⟨rfl, random_sim h⟩
      | apply Pairwise2.cons

theorem pow_sim (h : NumRel R slack a b) : BinRel R slack (Ops.pow f a).fn (Ops.pow f b).fn := by
  refine ⟨rfl, rfl, fun x y x' y' hx hx' => ?_⟩
  simp only [Ops.pow, h.toF64 _ _ hx, h.toF64 _ _ hx']
  split
  · exact h.fromF64 _
  · exact .err _

/-- The guard against a zero divisor. -/
theorem guard_sim (h : NumRel R slack a b) {q : N → N → Res N} {q' : M → M → Res M}
    (hq : ∀ x y x' y', R x y → R x' y' → Lift R slack (q x x') (q' y y')) (x : N) (y : M) (x' : N) (y' : M) (hx : R x y) (hx' : R x' y') :
    Lift R slack (if a.isZero x' then .err .divisionByZero else q x x') (if b.isZero y' then .err .divisionByZero else q' y y') := by
  rw [h.isZero _ _ hx']
  split
  · exact .err _
  · exact hq _ _ _ _ hx hx'

theorem checkedBinary_sim (h : NumRel R slack a b) (hc : CheckedRel R slack a b) :
    TableRel (BinRel R slack) (Ops.checkedBinary f a) (Ops.checkedBinary f b) :=
  .cons ⟨rfl, rfl, rfl, hc.add⟩ (.cons ⟨rfl, rfl, rfl, hc.sub⟩ (.cons ⟨rfl, rfl, rfl, hc.mul⟩
    (.cons ⟨rfl, rfl, rfl, guard_sim h hc.div⟩ (.cons ⟨rfl, pow_sim h⟩ (.cons ⟨rfl, rfl, rfl, guard_sim h hc.rem⟩ .nil)))))

theorem uncheckedBinary_sim (h : NumRel R slack a b) (hc : PlainRel R slack a b) (hm : MinusRel R slack a b) :
    TableRel (BinRel R slack) (Ops.uncheckedBinary f a) (Ops.uncheckedBinary f b) :=
  .cons ⟨rfl, rfl, rfl, hc.add⟩ (.cons ⟨rfl, rfl, rfl, hm⟩ (.cons ⟨rfl, rfl, rfl, hc.mul⟩
    (.cons ⟨rfl, rfl, rfl, guard_sim h hc.div⟩ (.cons ⟨rfl, pow_sim h⟩ (.cons ⟨rfl, rfl, rfl, guard_sim h hc.rem⟩ .nil)))))

theorem uncheckedBinary_sim_no_minus (h : NumRel R slack a b) (hc : PlainRel R slack a b) :
    TableRelExcept (BinRel R slack) [str "-"] (Ops.uncheckedBinary f a) (Ops.uncheckedBinary f b) :=
  .cons ⟨rfl, .inr ⟨rfl, rfl, hc.add⟩⟩ (.cons ⟨rfl, .inl ⟨_, .head _, rfl⟩⟩ (.cons ⟨rfl, .inr ⟨rfl, rfl, hc.mul⟩⟩
    (.cons ⟨rfl, .inr ⟨rfl, rfl, guard_sim h hc.div⟩⟩ (.cons ⟨rfl, .inr (pow_sim h)⟩ (.cons ⟨rfl, .inr ⟨rfl, rfl, guard_sim h hc.rem⟩⟩ .nil)))))

theorem factorialLoop_sim (h : NumRel R slack a b) (hc : PlainRel R slack a b) (hm : MinusRel R slack a b) (fuel : Nat)
    {t : N} {t' : M} (ht : R t t') {n : N} {n' : M} (hn : R n n') :
    Lift (fun p q => R p.1 q.1 ∧ R p.2 q.2) slack (Ops.factorialLoop a fuel t n) (Ops.factorialLoop b fuel t' n') := by
  induction fuel generalizing t t' n n' with
  | zero =>
    simp only [Ops.factorialLoop, h.ge _ _ _ _ hn h.one]
    split
    · exact .panic
    · exact .ok ⟨ht, hn⟩
  | succ fuel ih =>
    simp only [Ops.factorialLoop, h.ge _ _ _ _ hn h.one]
    split
    · exact (hc.mul _ _ _ _ ht hn).bind fun _ _ ht => (hm _ _ _ _ hn h.one).bind fun _ _ hn => ih ht hn
    · exact .ok ⟨ht, hn⟩

theorem factorial_sim (h : NumRel R slack a b) (hc : PlainRel R slack a b) (hm : MinusRel R slack a b) :
    UnRel R slack (Ops.factorial f a).fn (Ops.factorial f b).fn := by
  refine ⟨rfl, fun x y hx => ?_⟩
  simp only [Ops.factorial, h.lt _ _ _ _ hx h.zero, h.isZero _ _ hx, h.isOne _ _ hx, h.lt _ _ _ _ hx h.one, h.toF64 _ _ hx, h.fuel _ _ hx]
  split
  · exact .err _
  · split
    · exact .ok h.one
    · split
      · split
        · exact h.fromF64 _
        · exact .err _
      · refine (hm _ _ _ _ hx h.one).bind fun n n' hn => (factorialLoop_sim h hc hm _ hx hn).bind fun p q hpq => ?_
        rw [h.isZero _ _ hpq.2, h.toF64 _ _ hpq.1, h.toF64 _ _ hpq.2]
        split
        · exact .ok hpq.1
        · split
          · exact h.fromF64 _
          · exact .err _

theorem checkedUnary_sim (h : NumRel R slack a b) (hc : CheckedRel R slack a b) (hp : PlainRel R slack a b) (hm : MinusRel R slack a b) :
    TableRel (UnRel R slack) (Ops.checkedUnary f a) (Ops.checkedUnary f b) :=
  .cons ⟨rfl, rfl, fun _ _ h => .ok h⟩ (.cons ⟨rfl, rfl, hc.neg⟩ (.cons ⟨rfl, factorial_sim h hp hm⟩ .nil))
theorem checkedUnary_sim_no_factorial (h : NumRel R slack a b) (hc : CheckedRel R slack a b) :
    TableRelExcept (UnRel R slack) [str "!"] (Ops.checkedUnary f a) (Ops.checkedUnary f b) :=
  .cons ⟨rfl, .inr ⟨rfl, fun _ _ h => .ok h⟩⟩ (.cons ⟨rfl, .inr ⟨rfl, hc.neg⟩⟩ (.cons ⟨rfl, .inl ⟨_, .head _, rfl⟩⟩ .nil))
theorem uncheckedUnary_sim (h : NumRel R slack a b) (hp : PlainRel R slack a b) (hm : MinusRel R slack a b) :
    TableRel (UnRel R slack) (Ops.uncheckedUnary f a) (Ops.uncheckedUnary f b) :=
  .cons ⟨rfl, rfl, fun _ _ h => .ok h⟩ (.cons ⟨rfl, rfl, hp.neg⟩ (.cons ⟨rfl, factorial_sim h hp hm⟩ .nil))
theorem uncheckedUnary_sim_no_factorial (h : NumRel R slack a b) (hp : PlainRel R slack a b) :
    TableRelExcept (UnRel R slack) [str "!"] (Ops.uncheckedUnary f a) (Ops.uncheckedUnary f b) :=
  .cons ⟨rfl, .inr ⟨rfl, fun _ _ h => .ok h⟩⟩ (.cons ⟨rfl, .inr ⟨rfl, hp.neg⟩⟩ (.cons ⟨rfl, .inl ⟨_, .head _, rfl⟩⟩ .nil))

end Prexel

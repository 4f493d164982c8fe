import Verif.Spec.Register
import Verif.Props.Context
/-!
# Property C124: the order of registrations does not matter
-/

set_option linter.unusedVariables false
set_option linter.unusedSimpArgs false

namespace Prexel
variable {N V : Type}

variable {same : Str → Str → Bool}

theorem fresh_iff (m : Map V) (l : List Str) :
    Fresh same m l ↔ (∀ a ∈ l, Map.get same m a = none) ∧ l.Pairwise (fun a b => same a b = false) := by
  induction l with
  | nil => simp [Fresh]
  | cons a l ih =>
    simp only [Fresh, ih, List.mem_cons, forall_eq_or_imp, List.pairwise_cons]
    constructor
    · rintro ⟨h1, h2, h3, h4⟩; exact ⟨⟨h1, h3⟩, h2, h4⟩
    · rintro ⟨⟨h1, h3⟩, h2, h4⟩; exact ⟨h1, h2, h3, h4⟩

theorem addAs_ok_iff (hs : Equiv same) (debug : Bool) (m : Map V) (f : Named V) (name : Str) :
    (addAs same debug m f name).1 = .ok () ↔ debugCheck debug name = .ok () ∧ (∀ a ∈ name :: f.aliases, Map.get same m a = none) ∧
      f.aliases.Pairwise (fun a b => same a b = false) := by
  have hp := (insertAliases_panic hs f.fn f.aliases m).trans (fresh_iff m f.aliases)
  unfold addAs
  cases hd : debugCheck debug name with
  | err k => simp
  | panic => simp
  | ok u =>
    simp only [true_and]
    by_cases hc : Map.containsKey same m name = true
    · rw [if_pos hc]
      unfold Map.containsKey at hc
      constructor
      · intro h; cases h
      · intro h; rw [h.1 name (by simp)] at hc; cases hc
    · rw [if_neg hc]
      have hg : Map.get same m name = none := by
        unfold Map.containsKey at hc
        cases hg : Map.get same m name with
        | none => rfl
        | some x => rw [hg] at hc; simp at hc
      simp only [List.mem_cons, forall_eq_or_imp, hg, true_and]
      rw [← hp]
      cases hi : insertAliases same f.fn f.aliases m with
      | mk r m' => cases r <;> simp

theorem res_map_ok {α β : Type} (r : Res α) (f : α → β) : (∃ b, r.map f = .ok b) ↔ ∃ a, r = .ok a := by
  cases r <;> simp [Res.map]

/-- The two maps answer every look-up alike. -/
def Alike (same : Str → Str → Bool) (m m' : Map V) : Prop := ∀ k, Map.get same m k = Map.get same m' k

theorem addAs_alike (hs : Equiv same) (debug : Bool) {m m' : Map V} (h : Alike same m m') (f : Named V) (name : Str)
    (hok : (addAs same debug m f name).1 = .ok ()) :
    (addAs same debug m' f name).1 = .ok () ∧ Alike same (addAs same debug m f name).2 (addAs same debug m' f name).2 := by
  have h1 : (addAs same debug m' f name).1 = .ok () := by
    rw [addAs_ok_iff hs] at hok ⊢
    exact ⟨hok.1, fun a ha => by rw [← h a]; exact hok.2.1 a ha, hok.2.2⟩
  refine ⟨h1, fun k => ?_⟩
  rw [addAs_ok hs debug m f name hok, addAs_ok hs debug m' f name h1, h k]

theorem addAs_swap (hs : Equiv same) (debug : Bool) (m : Map V) (f g : Named V) (a b : Str)
    (h1 : (addAs same debug m f a).1 = .ok ()) (h2 : (addAs same debug (addAs same debug m f a).2 g b).1 = .ok ()) :
    (addAs same debug m g b).1 = .ok () ∧ (addAs same debug (addAs same debug m g b).2 f a).1 = .ok () ∧
      Alike same (addAs same debug (addAs same debug m f a).2 g b).2 (addAs same debug (addAs same debug m g b).2 f a).2 := by
  have k1 := addAs_ok hs debug m f a h1
  have hb := (addAs_ok_iff hs debug _ g b).mp h2
  have ha := (addAs_ok_iff hs debug m f a).mp h1
  have hdis : ∀ x ∈ b :: g.aliases, ∀ y ∈ a :: f.aliases, same y x = false := by
    intro x hx y hy
    have := hb.2.1 x hx
    rw [k1] at this
    cases hyx : same y x with
    | false => rfl
    | true =>
      have hany : (a :: f.aliases).any (same · x) = true := List.any_eq_true.mpr ⟨y, hy, hyx⟩
      rw [if_pos hany] at this
      cases this
  have h3 : (addAs same debug m g b).1 = .ok () := by
    rw [addAs_ok_iff hs]
    refine ⟨hb.1, fun x hx => ?_, hb.2.2⟩
    have := hb.2.1 x hx
    rw [k1] at this
    split at this
    · cases this
    · exact this
  have k3 := addAs_ok hs debug m g b h3
  have h4 : (addAs same debug (addAs same debug m g b).2 f a).1 = .ok () := by
    rw [addAs_ok_iff hs]
    refine ⟨ha.1, fun y hy => ?_, ha.2.2⟩
    rw [k3, if_neg]
    · exact ha.2.1 y hy
    · intro hany
      obtain ⟨x, hx, hxy⟩ := List.any_eq_true.mp hany
      have := hdis x hx y hy
      have hyx := hs.symm x y hxy
      rw [this] at hyx
      cases hyx
  refine ⟨h3, h4, fun k => ?_⟩
  rw [addAs_ok hs debug _ g b h2, addAs_ok hs debug _ f a h4, k1, k3]
  by_cases p : (b :: g.aliases).any (same · k) = true
  · rw [if_pos p]
    by_cases q : (a :: f.aliases).any (same · k) = true
    · exfalso
      obtain ⟨x, hx, hxk⟩ := List.any_eq_true.mp p
      obtain ⟨y, hy, hyk⟩ := List.any_eq_true.mp q
      have := hs.trans y k x hyk (hs.symm x k hxk)
      rw [hdis x hx y hy] at this
      cases this
    · rw [if_neg q]; rw [if_pos p]
  · rw [if_neg p]
    by_cases q : (a :: f.aliases).any (same · k) = true
    · rw [if_pos q]; rw [if_pos q]
    · rw [if_neg q, if_neg q, if_neg p]

/-- The two contexts are alike for every later use. -/
structure AlikeCtx (K : Keys) (c c' : Context N) : Prop where
  config : c.config = c'.config
  variables : Alike sameString c.variables c'.variables
  constants : Alike K.same c.constants c'.constants
  functions : Alike K.same c.functions c'.functions
  unary : Alike K.same c.unary c'.unary
  binary : Alike K.same c.binary c'.binary
  varNames : ∀ x, (Map.keys c.variables).any (fun k => eqIgnoreCase K.L k x) = (Map.keys c'.variables).any (fun k => eqIgnoreCase K.L k x)
  constNames : ∀ x, (Map.keys c.constants).any (fun k => eqIgnoreCase K.L k x) = (Map.keys c'.constants).any (fun k => eqIgnoreCase K.L k x)

theorem AlikeCtx.refl (K : Keys) (c : Context N) : AlikeCtx K c c :=
  ⟨rfl, fun _ => rfl, fun _ => rfl, fun _ => rfl, fun _ => rfl, fun _ => rfl, fun _ => rfl, fun _ => rfl⟩

theorem AlikeCtx.symm {K : Keys} {a b : Context N} (h : AlikeCtx K a b) : AlikeCtx K b a :=
  ⟨h.config.symm, fun k => (h.variables k).symm, fun k => (h.constants k).symm, fun k => (h.functions k).symm, fun k => (h.unary k).symm,
    fun k => (h.binary k).symm, fun x => (h.varNames x).symm, fun x => (h.constNames x).symm⟩

theorem AlikeCtx.trans {K : Keys} {a b c : Context N} (h : AlikeCtx K a b) (h' : AlikeCtx K b c) : AlikeCtx K a c :=
  ⟨h.config.trans h'.config, fun k => (h.variables k).trans (h'.variables k), fun k => (h.constants k).trans (h'.constants k),
    fun k => (h.functions k).trans (h'.functions k), fun k => (h.unary k).trans (h'.unary k), fun k => (h.binary k).trans (h'.binary k),
    fun x => (h.varNames x).trans (h'.varNames x), fun x => (h.constNames x).trans (h'.constNames x)⟩

theorem AlikeCtx.view {K : Keys} {a b : Context N} (h : AlikeCtx K a b) : a.view K = b.view K := by
  unfold Context.view
  congr 1
  · exact h.config
  · exact funext h.variables
  · exact funext h.constants
  · exact funext h.functions
  · exact funext h.unary
  · exact funext h.binary

theorem keys_of_insert (same : Str → Str → Bool) (m : Map V) (k : Str) (v : V) :
    Map.keys (Map.insert same m k v) = if Map.containsKey same m k then Map.keys m else Map.keys m ++ [k] := by
  unfold Map.insert
  split
  · unfold Map.keys
    rw [List.map_map]
    apply List.map_congr_left
    intro e he
    simp only [Function.comp]
    split <;> rfl
  · simp [Map.keys]

theorem any_insert (L : Lowercase) (hsub : ∀ a b, same a b = true → eqIgnoreCase L a b = true) (m : Map V) (k x : Str) (v : V) :
    (Map.keys (Map.insert same m k v)).any (fun k => eqIgnoreCase L k x) =
      ((Map.keys m).any (fun k => eqIgnoreCase L k x) || eqIgnoreCase L k x) := by
  rw [keys_of_insert]
  split
  · rename_i hc
    unfold Map.containsKey at hc
    cases hg : Map.get same m k with
    | none => rw [hg] at hc; cases hc
    | some w =>
      obtain ⟨y, hy, hyk⟩ := Map.get_some_key hg
      cases he : eqIgnoreCase L k x with
      | false => simp
      | true =>
        simp only [Bool.or_true]
        exact List.any_eq_true.mpr ⟨y, hy, eqIgnoreCase_trans L (hsub _ _ hyk) he⟩
  · simp

theorem sameString_sub (L : Lowercase) (a b : Str) (h : sameString a b = true) : eqIgnoreCase L a b = true := by
  have : a = b := by simpa [sameString] using h
  subst this; exact eqIgnoreCase_refl L a

theorem alike_insert (hs : Equiv same) {m m' : Map V} (h : Alike same m m') (k : Str) (v : V) :
    Alike same (Map.insert same m k v) (Map.insert same m' k v) := by
  intro x
  rw [Map.get_insert hs, Map.get_insert hs, h x]

theorem insert_swap (hs : Equiv same) (m : Map V) (a b : Str) (v w : V) (hab : same a b = false) :
    Alike same (Map.insert same (Map.insert same m a v) b w) (Map.insert same (Map.insert same m b w) a v) := by
  intro x
  simp only [Map.get_insert hs]
  by_cases p : same b x = true <;> by_cases q : same a x = true
  · have := hs.trans a x b q (hs.symm b x p)
    rw [hab] at this; cases this
  all_goals simp [p, q]

/-- What it takes for an operation to succeed. -/
def Accepts (K : Keys) (debug : Bool) (c : Context N) : Op N → Prop
  | .addFunctionAs f name => (addAs K.same debug c.functions f name).1 = .ok ()
  | .addUnaryFunctionAs f name => (addAs K.same debug c.unary f name).1 = .ok ()
  | .addBinaryFunctionAs f name => (addAs K.same debug c.binary f name).1 = .ok ()
  | .addConstant name _ => debugCheck debug name = .ok () ∧ (Map.keys c.variables).any (fun k => eqIgnoreCase K.L k name) = false
  | .setVariable name _ => debugCheck debug name = .ok () ∧ (Map.keys c.constants).any (fun k => eqIgnoreCase K.L k name) = false

/-- The context after an operation that succeeds. -/
def Context.accept (K : Keys) (debug : Bool) (c : Context N) : Op N → Context N
  | .addFunctionAs f name => { c with functions := (addAs K.same debug c.functions f name).2 }
  | .addUnaryFunctionAs f name => { c with unary := (addAs K.same debug c.unary f name).2 }
  | .addBinaryFunctionAs f name => { c with binary := (addAs K.same debug c.binary f name).2 }
  | .addConstant name v => { c with constants := Map.insert K.same c.constants name v }
  | .setVariable name v => { c with variables := Map.insert sameString c.variables name v }

theorem run_accepts (K : Keys) (debug : Bool) (c : Context N) (o : Op N) :
    ((∃ r, (c.run K debug o).1 = .ok r) ↔ Accepts K debug c o) ∧ (Accepts K debug c o → (c.run K debug o).2 = c.accept K debug o) := by
  cases o with
  | addFunctionAs f name => exact ⟨(res_map_ok _ _).trans ⟨fun ⟨u, h⟩ => h, fun h => ⟨_, h⟩⟩, fun _ => rfl⟩
  | addUnaryFunctionAs f name => exact ⟨(res_map_ok _ _).trans ⟨fun ⟨u, h⟩ => h, fun h => ⟨_, h⟩⟩, fun _ => rfl⟩
  | addBinaryFunctionAs f name => exact ⟨(res_map_ok _ _).trans ⟨fun ⟨u, h⟩ => h, fun h => ⟨_, h⟩⟩, fun _ => rfl⟩
  | addConstant name v =>
    unfold Context.run Accepts
    cases hd : debugCheck debug name with
    | err k => simp [hd]
    | panic => simp [hd]
    | ok u =>
      simp only [hd]
      by_cases hc : (Map.keys c.variables).any (fun k => eqIgnoreCase K.L k name) = true
      · rw [if_pos hc]; simp [hc]
      · rw [if_neg hc]; rw [Bool.not_eq_true] at hc; exact ⟨⟨fun _ => ⟨trivial, hc⟩, fun _ => ⟨_, rfl⟩⟩, fun _ => rfl⟩
  | setVariable name v =>
    unfold Context.run Accepts
    cases hd : debugCheck debug name with
    | err k => simp [hd]
    | panic => simp [hd]
    | ok u =>
      simp only [hd]
      by_cases hc : (Map.keys c.constants).any (fun k => eqIgnoreCase K.L k name) = true
      · rw [if_pos hc]; simp [hc]
      · rw [if_neg hc]; rw [Bool.not_eq_true] at hc; exact ⟨⟨fun _ => ⟨trivial, hc⟩, fun _ => ⟨_, rfl⟩⟩, fun _ => rfl⟩

theorem accept_alike (K : Keys) (debug : Bool) {c c' : Context N} (h : AlikeCtx K c c') (o : Op N) (ha : Accepts K debug c o) :
    Accepts K debug c' o ∧ AlikeCtx K (c.accept K debug o) (c'.accept K debug o) := by
  cases o with
  | addFunctionAs f name =>
    have := addAs_alike K.equiv debug h.functions f name ha
    exact ⟨this.1, { h with functions := this.2 }⟩
  | addUnaryFunctionAs f name =>
    have := addAs_alike K.equiv debug h.unary f name ha
    exact ⟨this.1, { h with unary := this.2 }⟩
  | addBinaryFunctionAs f name =>
    have := addAs_alike K.equiv debug h.binary f name ha
    exact ⟨this.1, { h with binary := this.2 }⟩
  | addConstant name v =>
    refine ⟨⟨ha.1, by rw [← h.varNames]; exact ha.2⟩, { h with constants := alike_insert K.equiv h.constants name v, constNames := fun x => ?_ }⟩
    simp only [Context.accept]
    rw [any_insert K.L K.eq, any_insert K.L K.eq, h.constNames]
  | setVariable name v =>
    refine ⟨⟨ha.1, by rw [← h.constNames]; exact ha.2⟩,
      { h with variables := alike_insert sameString_equiv h.variables name v, varNames := fun x => ?_ }⟩
    simp only [Context.accept]
    rw [any_insert K.L (sameString_sub K.L), any_insert K.L (sameString_sub K.L), h.varNames]

theorem accept_swap (K : Keys) (debug : Bool) (c : Context N) (o p : Op N) (hne : ¬ Overwrites K o p) (ho : Accepts K debug c o)
    (hp : Accepts K debug (c.accept K debug o) p) :
    Accepts K debug c p ∧ Accepts K debug (c.accept K debug p) o ∧
      AlikeCtx K ((c.accept K debug o).accept K debug p) ((c.accept K debug p).accept K debug o) := by
  have R : ∀ c : Context N, AlikeCtx K c c := AlikeCtx.refl K
  cases o <;> cases p
  case addFunctionAs.addFunctionAs f a g b =>
    obtain ⟨h1, h2, h3⟩ := addAs_swap K.equiv debug c.functions f g a b ho hp
    exact ⟨h1, h2, { R c with functions := h3 }⟩
  case addUnaryFunctionAs.addUnaryFunctionAs f a g b =>
    obtain ⟨h1, h2, h3⟩ := addAs_swap K.equiv debug c.unary f g a b ho hp
    exact ⟨h1, h2, { R c with unary := h3 }⟩
  case addBinaryFunctionAs.addBinaryFunctionAs f a g b =>
    obtain ⟨h1, h2, h3⟩ := addAs_swap K.equiv debug c.binary f g a b ho hp
    exact ⟨h1, h2, { R c with binary := h3 }⟩
  case addConstant.addConstant a v b w =>
    refine ⟨hp, ho, { R c with constants := insert_swap K.equiv _ _ _ _ _ (by simpa [Overwrites] using hne), constNames := fun x => ?_ }⟩
    simp only [Context.accept]
    simp only [any_insert K.L K.eq]
    cases eqIgnoreCase K.L a x <;> cases eqIgnoreCase K.L b x <;> simp
  case setVariable.setVariable a v b w =>
    have hab : sameString a b = false := by simpa [Overwrites, sameString] using hne
    refine ⟨hp, ho, { R c with variables := insert_swap sameString_equiv _ _ _ _ _ hab, varNames := fun x => ?_ }⟩
    simp only [Context.accept]
    simp only [any_insert K.L (sameString_sub K.L)]
    cases eqIgnoreCase K.L a x <;> cases eqIgnoreCase K.L b x <;> simp
  case addConstant.setVariable a v b w =>
    simp only [Accepts, Context.accept, any_insert K.L K.eq, Bool.or_eq_false_iff] at hp
    refine ⟨⟨hp.1, hp.2.1⟩, ⟨ho.1, ?_⟩, R _⟩
    simp only [Context.accept, any_insert K.L (sameString_sub K.L), Bool.or_eq_false_iff]
    exact ⟨ho.2, by rw [eqIgnoreCase_comm]; exact hp.2.2⟩
  case setVariable.addConstant a v b w =>
    simp only [Accepts, Context.accept, any_insert K.L (sameString_sub K.L), Bool.or_eq_false_iff] at hp
    refine ⟨⟨hp.1, hp.2.1⟩, ⟨ho.1, ?_⟩, R _⟩
    simp only [Context.accept, any_insert K.L K.eq, Bool.or_eq_false_iff]
    exact ⟨ho.2, by rw [eqIgnoreCase_comm]; exact hp.2.2⟩
  all_goals exact ⟨hp, ho, R _⟩

theorem overwrites_comm (K : Keys) (o p : Op N) : Overwrites K o p → Overwrites K p o := by
  cases o <;> cases p <;> simp [Overwrites]
  · exact fun h => K.symm _ _ h
  · exact fun h => h.symm

/-- Runs operations that succeed. -/
def AllAccepted (K : Keys) (debug : Bool) : Context N → List (Op N) → Prop
  | _, [] => True
  | c, o :: os => Accepts K debug c o ∧ AllAccepted K debug (c.accept K debug o) os

theorem allOk_iff (K : Keys) (debug : Bool) (c : Context N) (os : List (Op N)) :
    AllOk K debug c os ↔ AllAccepted K debug c os := by
  induction os generalizing c with
  | nil => simp [AllOk, AllAccepted, Context.trace]
  | cons o os ih =>
    have hr := run_accepts K debug c o
    unfold AllAccepted
    rw [← ih]
    unfold AllOk
    simp only [Context.trace, List.mem_cons, forall_eq_or_imp]
    rw [hr.1]
    constructor
    · rintro ⟨h1, h2⟩; rw [hr.2 h1] at h2; exact ⟨h1, h2⟩
    · rintro ⟨h1, h2⟩; rw [hr.2 h1]; exact ⟨h1, h2⟩

theorem runAll_accept (K : Keys) (debug : Bool) (c : Context N) (os : List (Op N)) (h : AllAccepted K debug c os) :
    Context.runAll K debug c os = os.foldl (Context.accept K debug) c := by
  induction os generalizing c with
  | nil => rfl
  | cons o os ih =>
    rw [Context.runAll, (run_accepts K debug c o).2 h.1, ih _ h.2]; rfl

theorem foldl_alike (K : Keys) (debug : Bool) {c c' : Context N} (h : AlikeCtx K c c') (os : List (Op N)) (ha : AllAccepted K debug c os) :
    AllAccepted K debug c' os ∧ AlikeCtx K (os.foldl (Context.accept K debug) c) (os.foldl (Context.accept K debug) c') := by
  induction os generalizing c c' with
  | nil => exact ⟨trivial, h⟩
  | cons o os ih =>
    obtain ⟨h1, h2⟩ := accept_alike K debug h o ha.1
    obtain ⟨h3, h4⟩ := ih h2 ha.2
    exact ⟨⟨h1, h3⟩, h4⟩

theorem perm_alike (K : Keys) (debug : Bool) {os os' : List (Op N)} (hp : os.Perm os') (c : Context N)
    (hne : os.Pairwise (fun a b => ¬ Overwrites K a b)) (ha : AllAccepted K debug c os) :
    AllAccepted K debug c os' ∧ AlikeCtx K (os.foldl (Context.accept K debug) c) (os'.foldl (Context.accept K debug) c) := by
  induction hp generalizing c with
  | nil => exact ⟨trivial, .refl K c⟩
  | cons o hp ih =>
    obtain ⟨h1, h2⟩ := ih (c.accept K debug o) (List.pairwise_cons.mp hne).2 ha.2
    exact ⟨⟨ha.1, h1⟩, h2⟩
  | swap p o os =>
    obtain ⟨h1, h2, h3⟩ := accept_swap K debug c o p ((List.pairwise_cons.mp hne).1 p (by simp)) ha.1 ha.2.1
    obtain ⟨h4, h5⟩ := foldl_alike K debug h3 os ha.2.2
    exact ⟨⟨h1, h2, h4⟩, h5⟩
  | trans hp hp' ih ih' =>
    obtain ⟨h1, h2⟩ := ih c hne ha
    obtain ⟨h3, h4⟩ := ih' c ((hp.pairwise_iff (fun {a b} h h' => h (overwrites_comm K _ _ h'))).mp hne) h1
    exact ⟨h3, h2.trans h4⟩

/-- C124. If registrations succeed in one order, and none gives a value to a variable or constant that another one gives a value to, then
they succeed in every order; and every later expression evaluates to the same, whatever the order was. -/
theorem C124_order (K : Keys) (debug : Bool) (config : Config) (os os' : List (Op N)) (hp : os.Perm os')
    (hne : os.Pairwise (fun a b => ¬ Overwrites K a b)) (hok : AllOk K debug (Context.withConfig config) os) :
    AllOk K debug (Context.withConfig config) os' ∧
      ∀ (parse : Str → Option N) (splitter : Str → List Str) (s : Str),
        eval parse splitter ((Context.runAll K debug (Context.withConfig config) os).view K) s =
        eval parse splitter ((Context.runAll K debug (Context.withConfig config) os').view K) s := by
  rw [allOk_iff] at hok
  obtain ⟨h1, h2⟩ := perm_alike K debug hp _ hne hok
  refine ⟨(allOk_iff ..).mpr h1, fun parse splitter s => ?_⟩
  rw [runAll_accept K debug _ os hok, runAll_accept K debug _ os' h1, h2.view]

theorem allOk_of_all (K : Keys) (debug : Bool) (c : Context N) (os : List (Op N))
    (h : ((c.trace K debug os).all fun e => e.2.isOk) = true) : AllOk K debug c os := by
  intro e he
  have := List.all_eq_true.mp h e he
  cases hr : e.2 with
  | ok r => exact ⟨r, rfl⟩
  | err k => rw [hr] at this; cases this
  | panic => rw [hr] at this; cases this

/-- Two functions with aliases, an operator, a constant and a variable, in two orders. -/
def Demo.registrations : List (Op Int) := [.addFunction sumNamed, .addConstant (str "Pi") 3, .addFunction ⟨str "total", [str "d"], Demo.sum⟩,
  .setVariable (str "x") 4, .addBinaryFunction ⟨str "+", [str "plus"], ⟨1, .left, fun a b => .ok (a + b)⟩⟩]

example : AllOk (Keys.byEq demoLowercase) true (Context.withConfig Config.new) Demo.registrations := allOk_of_all _ _ _ _ (by decide)

example : Demo.registrations.Pairwise (fun a b => ¬ Overwrites (Keys.byEq demoLowercase) a b) := by
  simp [Demo.registrations, Overwrites, Op.addFunction, Op.addBinaryFunction]

/-- The condition is needed: of two values given to the same variable the last one stays. -/
example : ∃ (K : Keys) (a b : Op Int), AllOk K true (Context.withConfig Config.new) [a, b] ∧
    AllOk K true (Context.withConfig Config.new) [b, a] ∧
    ((Context.runAll K true (Context.withConfig Config.new) [a, b]).view K).getVariable (str "x") ≠
    ((Context.runAll K true (Context.withConfig Config.new) [b, a]).view K).getVariable (str "x") :=
  ⟨Keys.byEq demoLowercase, .setVariable (str "x") 1, .setVariable (str "x") 2, allOk_of_all _ _ _ _ (by decide),
    allOk_of_all _ _ _ _ (by decide), by decide⟩

/-- C124 for the look-ups. -/
theorem C124_lookups (K : Keys) (debug : Bool) (config : Config) (os os' : List (Op N)) (hp : os.Perm os')
    (hne : os.Pairwise (fun a b => ¬ Overwrites K a b)) (hok : AllOk K debug (Context.withConfig config) os) :
    (Context.runAll K debug (Context.withConfig config) os).view K = (Context.runAll K debug (Context.withConfig config) os').view K := by
  rw [allOk_iff] at hok
  obtain ⟨h1, h2⟩ := perm_alike K debug hp _ hne hok
  rw [runAll_accept K debug _ os hok, runAll_accept K debug _ os' h1, h2.view]

end Prexel

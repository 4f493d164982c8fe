import Verif.Spec.Info
import Verif.Lemmas.Info
import Verif.Props.Context
import Verif.Props.Order
/-!
# C116: aliases and descriptions in listings
-/

namespace Prexel
variable {N V D F T : Type}

/-! ## Any history -/

/-- What is known of the three maps after a history. -/
structure SoundAll (K : Keys) (os : List (Op N × Option Str)) (c : Documented N) : Prop where
  functions : Sound K.same (fun k e => ∃ f name d, (.addFunctionAs f name, d) ∈ os ∧ k ∈ name :: f.aliases ∧ e = ⟨f.fn, f.aliases, d⟩) c.functions
  unary : Sound K.same (fun k e => ∃ f name d, (.addUnaryFunctionAs f name, d) ∈ os ∧ k ∈ name :: f.aliases ∧ e = ⟨f.fn, f.aliases, d⟩) c.unary
  binary : Sound K.same (fun k e => ∃ f name d, (.addBinaryFunctionAs f name, d) ∈ os ∧ k ∈ name :: f.aliases ∧ e = ⟨f.fn, f.aliases, d⟩) c.binary

theorem Sound.mono {same : Str → Str → Bool} {P P' : Str → Entry V → Prop} {m : Map (Entry V)} (h : Sound same P m) (hP : ∀ k e, P k e → P' k e) :
    Sound same P' m := ⟨h.values, h.aliases, fun e he => hP _ _ (h.origin e he)⟩

theorem soundAll_step {K : Keys} {debug : Bool} {os : List (Op N × Option Str)} {c : Documented N} (h : SoundAll K os c) (o : Op N × Option Str)
    (hnp : (c.run K debug o.2 o.1).1 ≠ .panic) : SoundAll K (os ++ [o]) (c.run K debug o.2 o.1).2 := by
  have hf : Sound K.same (fun k e => ∃ f name d, (.addFunctionAs f name, d) ∈ os ++ [o] ∧ k ∈ name :: f.aliases ∧ e = ⟨f.fn, f.aliases, d⟩) c.functions :=
    h.functions.mono fun k e ⟨f, name, d, h1, h2⟩ => ⟨f, name, d, by simp [h1], h2⟩
  have hu : Sound K.same (fun k e => ∃ f name d, (.addUnaryFunctionAs f name, d) ∈ os ++ [o] ∧ k ∈ name :: f.aliases ∧ e = ⟨f.fn, f.aliases, d⟩) c.unary :=
    h.unary.mono fun k e ⟨f, name, d, h1, h2⟩ => ⟨f, name, d, by simp [h1], h2⟩
  have hb : Sound K.same (fun k e => ∃ f name d, (.addBinaryFunctionAs f name, d) ∈ os ++ [o] ∧ k ∈ name :: f.aliases ∧ e = ⟨f.fn, f.aliases, d⟩) c.binary :=
    h.binary.mono fun k e ⟨f, name, d, h1, h2⟩ => ⟨f, name, d, by simp [h1], h2⟩
  have np : ∀ (r : Res Unit), (r.map fun _ => (none : Option N)) ≠ .panic → r ≠ .panic := by
    rintro r hr rfl
    exact hr rfl
  obtain ⟨o, d⟩ := o
  cases o with
  | addFunctionAs f name =>
    exact ⟨sound_addAs K.equiv hf (fun _ _ h => h) debug f d name (np _ hnp) fun _ k hk => ⟨f, name, d, by simp, hk, rfl⟩, hu, hb⟩
  | addUnaryFunctionAs f name =>
    exact ⟨hf, sound_addAs K.equiv hu (fun _ _ h => h) debug f d name (np _ hnp) fun _ k hk => ⟨f, name, d, by simp, hk, rfl⟩, hb⟩
  | addBinaryFunctionAs f name =>
    exact ⟨hf, hu, sound_addAs K.equiv hb (fun _ _ h => h) debug f d name (np _ hnp) fun _ k hk => ⟨f, name, d, by simp, hk, rfl⟩⟩
  | addConstant name v => exact ⟨hf, hu, hb⟩
  | setVariable name v => exact ⟨hf, hu, hb⟩

theorem documented_runAll_append (K : Keys) (debug : Bool) (c : Documented N) (os os' : List (Op N × Option Str)) :
    c.runAll K debug (os ++ os') = (c.runAll K debug os).runAll K debug os' := by
  induction os generalizing c with
  | nil => rfl
  | cons o os ih => exact ih _

theorem soundAll_run {K : Keys} {debug : Bool} {config : Config} {os : List (Op N × Option Str)} (h : Quiet K debug (Documented.withConfig config) os) :
    SoundAll K os ((Documented.withConfig config).runAll K debug os) := by
  have key : ∀ n, SoundAll K (os.take n) ((Documented.withConfig config).runAll K debug (os.take n)) := by
    intro n
    induction n with
    | zero =>
      refine ⟨⟨?_, ?_, ?_⟩, ⟨?_, ?_, ?_⟩, ⟨?_, ?_, ?_⟩⟩ <;> exact fun e he => by cases he
    | succ n ih =>
      by_cases hn : n < os.length
      · rw [List.take_succ_eq_append_getElem hn, documented_runAll_append]
        refine soundAll_step ih os[n] (h (os.take n) os[n] (os.drop (n + 1)) ?_)
        rw [← List.drop_eq_getElem_cons hn, List.take_append_drop]
      · rw [List.take_of_length_le (by omega), ← List.take_of_length_le (l := os) (i := n) (by omega)]
        exact ih
  have := key os.length
  rwa [List.take_length] at this

theorem sound_true {K : Keys} {os : List (Op N × Option Str)} {mk : Named V → Str → Op N} {m : Map (Entry V)}
    (h : Sound K.same (fun k e => ∃ f name d, (mk f name, d) ∈ os ∧ k ∈ name :: f.aliases ∧ e = ⟨f.fn, f.aliases, d⟩) m) :
    ∀ i ∈ m.infos, ∃ f name d, (mk f name, d) ∈ os ∧ i.Truthful (Map.get K.same m.behaviour) f name d := by
  intro i hi
  obtain ⟨e, he, rfl⟩ := List.mem_map.1 hi
  obtain ⟨f, name, d, h1, h2, h3⟩ := h.origin e he
  refine ⟨f, name, d, h1, h2, by simp [h3], by simp [h3], ?_, fun a ha => ?_⟩
  · rw [behaviour_get]
    simp only [h.values e he, Option.map_some, h3]
  · rw [behaviour_get, h.aliases e he a ha]
    simp only [Option.map_some, h3]

theorem listed_of_found {K : Keys} {m : Map (Entry V)} {k : Str} {v : V} (h : Map.get K.same m.behaviour k = some v) :
    ∃ i ∈ m.infos, K.same i.name k = true := by
  rw [behaviour_get, Option.map_eq_some_iff] at h
  obtain ⟨e, he, -⟩ := h
  obtain ⟨e', he', -, hk⟩ := get_mem he
  exact ⟨_, List.mem_map.2 ⟨e', he', rfl⟩, hk⟩

/-- C116, the part that holds. In a context that was made by any registrations of which none panicked (refused ones are allowed), every entry of the
listings shows the aliases and the description of a registered function, and its name and all aliases shown are names of that function.
Missing: registrations that panic and are caught, see the counterexample. -/
theorem C116_entries_partial (K : Keys) (debug : Bool) (config : Config) (os : List (Op N × Option Str))
    (h : Quiet K debug (Documented.withConfig config) os) :
    let c := (Documented.withConfig config).runAll K debug os
    let v := c.plain.view K
    (∀ i ∈ c.functionInfos, ∃ f name d, (.addFunctionAs f name, d) ∈ os ∧ i.Truthful v.getFunction f name d) ∧
    (∀ i ∈ c.operatorInfos, (∃ f name d, (.addBinaryFunctionAs f name, d) ∈ os ∧ i.Truthful v.getBinary f name d) ∨
      ∃ f name d, (.addUnaryFunctionAs f name, d) ∈ os ∧ i.Truthful v.getUnary f name d) := by
  intro c v
  have hs : SoundAll K os c := soundAll_run h
  refine ⟨sound_true hs.functions, fun i hi => ?_⟩
  rcases List.mem_append.1 hi with hi | hi
  · exact .inl (sound_true hs.binary i hi)
  · exact .inr (sound_true hs.unary i hi)

/-- C116. Keeping aliases and descriptions changes nothing for evaluation: the context is the one that the same registrations make without them. All
its functions and operators are listed (under a name that differs in case at most), and nothing else. -/
theorem C116_complete (K : Keys) (debug : Bool) (config : Config) (os : List (Op N × Option Str)) :
    let c := (Documented.withConfig config).runAll K debug os
    let v := ((Context.withConfig config).runAll K debug (os.map (·.1))).view K
    c.plain.view K = v ∧
    (∀ k f, v.getFunction k = some f → ∃ i ∈ c.functionInfos, K.same i.name k = true) ∧
    (∀ k f, v.getBinary k = some f → ∃ i ∈ c.operatorInfos, K.same i.name k = true) ∧
    (∀ k f, v.getUnary k = some f → ∃ i ∈ c.operatorInfos, K.same i.name k = true) ∧
    (∀ i ∈ c.functionInfos, (v.getFunction i.name).isSome) ∧
    (∀ i ∈ c.operatorInfos, (v.getBinary i.name).isSome ∨ (v.getUnary i.name).isSome) := by
  intro c v
  have hv : c.plain.view K = v := by
    show ((Documented.withConfig config).runAll K debug os).plain.view K = _
    rw [runAll_plain]; rfl
  have hin : ∀ {W : Type} (m : Map (Entry W)) (i : FnInfo), i ∈ m.infos → (Map.get K.same m.behaviour i.name).isSome := by
    intro W m i hi
    obtain ⟨e, he, rfl⟩ := List.mem_map.1 hi
    rw [behaviour_get]
    simp only [Option.isSome_map, Map.get, List.find?_isSome]
    exact ⟨e, he, K.equiv.refl _⟩
  rw [← hv]
  refine ⟨rfl, fun k f h => listed_of_found h, fun k f h => ?_, fun k f h => ?_, fun i hi => hin _ i hi, fun i hi => ?_⟩
  · obtain ⟨i, hi, hk⟩ := listed_of_found h
    exact ⟨i, List.mem_append_left _ hi, hk⟩
  · obtain ⟨i, hi, hk⟩ := listed_of_found h
    exact ⟨i, List.mem_append_right _ hi, hk⟩
  · rcases List.mem_append.1 hi with hi | hi
    · exact .inl (hin _ i hi)
    · exact .inr (hin _ i hi)

/-- C116 fails after a caught panic: `digits` with the aliases `d` and `ADD_ALL` is refused with a panic because `add_all` exists, but stays listed as
`d` with the alias `ADD_ALL`, which is `sum`. -/
theorem C116_panic_counterexample :
    let K := Keys.byEq demoLowercase
    let g : Named (Fn Int) := ⟨str "digits", [str "d", str "ADD_ALL"], Demo.digits⟩
    let c := (Documented.withConfig Config.new).runAll K true [(.addFunction sumNamed, some (str "Adds")), (.addFunction g, some (str "Joins digits"))]
    (⟨str "d", [str "d", str "ADD_ALL"], some (str "Joins digits")⟩ : FnInfo) ∈ c.functionInfos ∧
    (c.plain.view K).getFunction (str "d") = some Demo.digits ∧ (c.plain.view K).getFunction (str "ADD_ALL") = some Demo.sum := by
  refine ⟨by decide, by rfl, by rfl⟩

/-- `C116_entries_partial` applies: two functions with aliases, an operator, and a refused registration. -/
example :
    let K := Keys.byEq demoLowercase
    let g : Named (Fn Int) := ⟨str "digits", [str "d"], Demo.digits⟩
    let os := [(.addFunction sumNamed, some (str "Adds")), (.addFunction g, none), (.addFunctionAs g (str "SUM"), none)]
    Quiet K true (Documented.withConfig Config.new) os ∧
    ((Documented.withConfig Config.new).runAll K true os).functionInfos =
      [⟨str "add_all", [str "add_all", str "Σ"], some (str "Adds")⟩, ⟨str "Σ", [str "add_all", str "Σ"], some (str "Adds")⟩,
       ⟨str "sum", [str "add_all", str "Σ"], some (str "Adds")⟩, ⟨str "d", [str "d"], none⟩, ⟨str "digits", [str "d"], none⟩] := by
  refine ⟨?_, by decide⟩
  intro before o after h
  rcases before with _ | ⟨a, _ | ⟨b, _ | ⟨c, before⟩⟩⟩
  · simp only [List.nil_append, List.cons.injEq] at h; obtain ⟨rfl, -⟩ := h; exact fun h => by revert h; decide
  · simp only [List.cons_append, List.nil_append, List.cons.injEq] at h; obtain ⟨rfl, rfl, -⟩ := h; exact fun h => by revert h; decide
  · simp only [List.cons_append, List.nil_append, List.cons.injEq] at h; obtain ⟨rfl, rfl, rfl, -⟩ := h; exact fun h => by revert h; decide
  · simp at h

/-! ## The built-in contexts -/

theorem quiet_of_unwrap {K : Keys} {debug : Bool} {c c' : Documented N} {os : List (Op N × Option Str)} (h : c.runUnwrap K debug os = .ok c') :
    Quiet K debug c os ∧ c.runAll K debug os = c' := by
  induction os generalizing c with
  | nil =>
    refine ⟨fun before o after h => ?_, Res.ok.inj h⟩
    cases before <;> simp at h
  | cons o os ih =>
    unfold Documented.runUnwrap at h
    cases hr : c.run K debug o.2 o.1 with
    | mk r c1 =>
      rw [hr] at h
      cases r with
      | err k => cases h
      | panic => cases h
      | ok u =>
        obtain ⟨h1, h2⟩ := ih h
        refine ⟨fun before o' after hb => ?_, by simp only [Documented.runAll, hr]; exact h2⟩
        cases before with
        | nil =>
          simp only [List.nil_append, List.cons.injEq] at hb
          obtain ⟨rfl, -⟩ := hb
          simp [Documented.runAll, hr]
        | cons a before =>
          simp only [List.cons_append, List.cons.injEq] at hb
          obtain ⟨rfl, rfl⟩ := hb
          simp only [Documented.runAll, hr]
          exact h1 before o' after rfl

/-- Name, aliases and description of the functions of a table. -/
def signatures (text : Str → Option Str) (fs : List (Named V)) : List (Str × List Str × Option Str) := fs.map fun f => (f.name, f.aliases, text f.name)

/-- Entries that come from functions with these signatures. -/
def FromTable (l : List (Str × List Str × Option Str)) (is : List FnInfo) : Prop :=
  ∀ i ∈ is, ∃ p ∈ l, i.name ∈ p.1 :: p.2.1 ∧ i.aliases = p.2.1 ∧ i.description = p.2.2

theorem from_build {K : Keys} {debug : Bool} {config : Config} {t : Descriptions} {cs : List (Str × N)} {bs : List (Named (BinFn N))}
    {us : List (Named (UnFn N))} {fs : List (Named (Fn N))} {os : List (Op N)} (ho : ∀ o ∈ os, BuildOp cs bs us fs o) {c : Documented N}
    (h : (Documented.withConfig config).runUnwrap K debug (t.on os) = .ok c) :
    FromTable (signatures t.functions fs) c.functionInfos ∧
    FromTable (signatures t.binary bs ++ signatures t.unary us) c.operatorInfos := by
  obtain ⟨hq, rfl⟩ := quiet_of_unwrap h
  obtain ⟨h1, h2⟩ := C116_entries_partial K debug config _ hq
  refine ⟨fun i hi => ?_, fun i hi => ?_⟩
  · obtain ⟨f, name, d, hm, ht⟩ := h1 i hi
    obtain ⟨o, hoo, he⟩ := List.mem_map.1 hm
    simp only [Prod.mk.injEq] at he
    obtain ⟨rfl, rfl⟩ := he
    rcases ho _ hoo with ⟨e, he, h⟩ | ⟨g, hg, h⟩ | ⟨g, hg, h⟩ | ⟨g, hg, h⟩
    · cases h
    · cases h
    · cases h
    · cases h
      exact ⟨_, List.mem_map.2 ⟨f, hg, rfl⟩, ht.under, ht.aliases, ht.description⟩
  · rcases h2 i hi with ⟨f, name, d, hm, ht⟩ | ⟨f, name, d, hm, ht⟩
    · obtain ⟨o, hoo, he⟩ := List.mem_map.1 hm
      simp only [Prod.mk.injEq] at he
      obtain ⟨rfl, rfl⟩ := he
      rcases ho _ hoo with ⟨e, he, h⟩ | ⟨g, hg, h⟩ | ⟨g, hg, h⟩ | ⟨g, hg, h⟩
      · cases h
      · cases h
        exact ⟨_, List.mem_append_left _ (List.mem_map.2 ⟨f, hg, rfl⟩), ht.under, ht.aliases, ht.description⟩
      · cases h
      · cases h
    · obtain ⟨o, hoo, he⟩ := List.mem_map.1 hm
      simp only [Prod.mk.injEq] at he
      obtain ⟨rfl, rfl⟩ := he
      rcases ho _ hoo with ⟨e, he, h⟩ | ⟨g, hg, h⟩ | ⟨g, hg, h⟩ | ⟨g, hg, h⟩
      · cases h
      · cases h
      · cases h
        exact ⟨_, List.mem_append_right _ (List.mem_map.2 ⟨f, hg, rfl⟩), ht.under, ht.aliases, ht.description⟩
      · cases h

theorem buildOps_mem (cs : List (Str × N)) (bs : List (Named (BinFn N))) (us : List (Named (UnFn N))) (fs : List (Named (Fn N))) :
    ∀ o ∈ buildOps cs bs us fs, BuildOp cs bs us fs o := by
  intro o ho
  simp only [buildOps, List.mem_append, List.mem_map] at ho
  rcases ho with ⟨e, he, rfl⟩ | ⟨f, hf, rfl⟩ | ⟨f, hf, rfl⟩ | ⟨f, hf, rfl⟩
  · exact .inl ⟨e, he, rfl⟩
  · exact .inr (.inl ⟨f, hf, rfl⟩)
  · exact .inr (.inr (.inl ⟨f, hf, rfl⟩))
  · exact .inr (.inr (.inr ⟨f, hf, rfl⟩))

/-- A table in which every function has a description, and no two the same, and whose aliases are among `names`. -/
def Described (names : List String) (l : List (Str × List Str × Option Str)) : Prop :=
  (∀ p ∈ l, (p.2.2.any fun s => !s.isEmpty) = true) ∧ (∀ p ∈ l, ∀ q ∈ l, p.2.2 = q.2.2 → p = q) ∧ ∀ p ∈ l, ∀ a ∈ p.2.1, a ∈ names.map str

instance (names : List String) (l : List (Str × List Str × Option Str)) : Decidable (Described names l) := by
  unfold Described; infer_instance

theorem informs_of_table {names : List String} {l : List (Str × List Str × Option Str)} {is : List FnInfo} (h : FromTable l is) (hd : Described names l)
    (hn : is.map (·.name) = names.map str) : Informs is := by
  refine ⟨fun i hi => ?_, fun i hi j hj hij => ?_, fun i hi a ha => ?_⟩
  · obtain ⟨p, hp, -, -, h3⟩ := h i hi
    have := hd.1 p hp
    rw [h3]
    cases hs : p.2.2 with
    | none => rw [hs] at this; cases this
    | some s =>
      rw [hs] at this
      refine ⟨s, rfl, ?_⟩
      rintro rfl
      cases this
  · obtain ⟨p, hp, h1, h2, h3⟩ := h i hi
    obtain ⟨q, hq, g1, g2, g3⟩ := h j hj
    have := hd.2.1 p hp q hq (by rw [← h3, ← g3, hij])
    subst this
    rw [h2, g2]
    rcases List.mem_cons.1 h1 with e | e
    · rcases List.mem_cons.1 g1 with e' | e'
      · exact .inl (e.trans e'.symm)
      · exact .inr (.inr e')
    · exact .inr (.inl e)
  · obtain ⟨p, hp, h1, h2, h3⟩ := h i hi
    rw [hn]
    exact hd.2.2 p hp a (by rw [← h2]; exact ha)

/-- The signatures of functions without aliases. -/
def withoutAliases (text : Str → Option Str) (names : List String) : List (Str × List Str × Option Str) := names.map fun n => (str n, [], text (str n))

theorem described_decimal : Described (functionsOf .decimal) (withoutAliases (descriptionIn functionTexts) (functionsOf .decimal)) := by decide +kernel
theorem described_float : Described (functionsOf .float) (withoutAliases (descriptionIn functionTexts) (functionsOf .float)) := by decide +kernel
theorem described_integer : Described (functionsOf .integer) (withoutAliases (descriptionIn functionTexts) (functionsOf .integer)) := by decide +kernel
theorem described_complex : Described (functionsOf .complex) (withoutAliases (descriptionIn functionTexts) (functionsOf .complex)) := by decide +kernel
theorem described_operators : Described (operatorsOf .decimal)
    (withoutAliases (descriptionIn binaryTexts) ["+", "-", "*", "/", "^", "mod"] ++ withoutAliases (descriptionIn unaryTexts) ["+", "-", "!"]) := by decide +kernel
theorem described_complexOperators : Described (operatorsOf .complex)
    (withoutAliases (descriptionIn binaryTexts) ["+", "-", "*", "/", "mod", "^"] ++ withoutAliases (descriptionIn unaryTexts) ["+", "-"]) := by decide +kernel

theorem described_bits (debug : Bool) : Described (operatorsOf .binary)
    (signatures Descriptions.bits.binary (Binary.operators debug) ++ signatures Descriptions.bits.unary [Binary.not]) := by
  have : signatures Descriptions.bits.binary (Binary.operators debug) = signatures Descriptions.bits.binary (Binary.operators true) := rfl
  rw [this]
  decide +kernel

theorem decimal_informs (W : World D F T) {I : Infos} (h : (Documented.decimal W.dec W.K W.debug true W.f Config.new).map (·.infos W.showDecimal) = .ok I)
    (hs : I.listing.Shows (functionsOf .decimal) (operatorsOf .decimal) (constantsOf .decimal)) : Informs I.functions ∧ Informs I.operators := by
  obtain ⟨c, hc, rfl⟩ := Res.map_eq_ok h
  obtain ⟨h1, h2⟩ := from_build (buildOps_mem _ _ _ _) hc
  exact ⟨informs_of_table h1 described_decimal hs.1, informs_of_table h2 described_operators hs.2.1⟩

theorem integer_informs (W : World D F T) {I : Infos} (h : (Documented.checked W.K W.debug true W.f W.intNum Config.new).map (·.infos showInt) = .ok I)
    (hs : I.listing.Shows (functionsOf .integer) (operatorsOf .integer) (constantsOf .integer)) : Informs I.functions ∧ Informs I.operators := by
  obtain ⟨c, hc, rfl⟩ := Res.map_eq_ok h
  unfold Documented.checked at hc
  split at hc
  · obtain ⟨h1, h2⟩ := from_build (buildOps_mem _ _ _ _) hc
    exact ⟨informs_of_table h1 described_integer hs.1, informs_of_table h2 described_operators hs.2.1⟩
  · cases hc

theorem float_informs (W : World D F T) {I : Infos}
    (h : (Documented.unchecked W.K W.debug true W.f (W.f.num W.floatNum) Config.new).map (·.infos W.showFloat) = .ok I)
    (hs : I.listing.Shows (functionsOf .float) (operatorsOf .float) (constantsOf .float)) : Informs I.functions ∧ Informs I.operators := by
  obtain ⟨c, hc, rfl⟩ := Res.map_eq_ok h
  unfold Documented.unchecked at hc
  split at hc
  · obtain ⟨h1, h2⟩ := from_build (buildOps_mem _ _ _ _) hc
    exact ⟨informs_of_table h1 described_float hs.1, informs_of_table h2 described_operators hs.2.1⟩
  · cases hc

theorem complex_informs (W : World D F T) {I : Infos} (h : (Documented.complex W.cx W.K W.debug true).map (·.infos W.showComplex) = .ok I)
    (hs : I.listing.Shows (functionsOf .complex) (operatorsOf .complex) (constantsOf .complex)) : Informs I.functions ∧ Informs I.operators := by
  obtain ⟨c, hc, rfl⟩ := Res.map_eq_ok h
  unfold Documented.complex at hc
  split at hc
  · obtain ⟨h1, h2⟩ := from_build (buildOps_mem _ _ _ _) hc
    exact ⟨informs_of_table h1 described_complex hs.1, informs_of_table h2 described_complexOperators hs.2.1⟩
  · cases hc

theorem binary_informs (W : World D F T) {I : Infos} (h : (Documented.binary_ W.K W.debug Config.new).map (·.infos Binary.display) = .ok I)
    (hs : I.listing.Shows (functionsOf .binary) (operatorsOf .binary) (constantsOf .binary)) : Informs I.functions ∧ Informs I.operators := by
  obtain ⟨c, hc, rfl⟩ := Res.map_eq_ok h
  have ho : ∀ o ∈ Op.addUnaryFunction Binary.not :: (Binary.operators W.debug).map Op.addBinaryFunction,
      BuildOp [] (Binary.operators W.debug) [Binary.not] [] o := by
    intro o ho
    rcases List.mem_cons.1 ho with rfl | ho
    · exact .inr (.inr (.inl ⟨_, by simp, rfl⟩))
    · obtain ⟨f, hf, rfl⟩ := List.mem_map.1 ho
      exact .inr (.inl ⟨f, hf, rfl⟩)
  obtain ⟨h1, h2⟩ := from_build ho hc
  refine ⟨informs_of_table h1 (names := functionsOf .binary) ⟨?_, ?_, ?_⟩ hs.1, informs_of_table h2 (described_bits W.debug) hs.2.1⟩ <;>
    · intro p hp; cases hp

/-- C116. In the listings of the server, with the default features, every function and operator has a description, functions with the same
description are the same one under another of its names, and every alias shown is itself listed. The names and constants are those of
C47 and C111. -/
theorem C116_server (W : World D F T) (t : Option NumberType) (I : Infos) (hI : W.serverInfos t = .ok I) :
    Informs I.functions ∧ Informs I.operators ∧
    W.serverListing t = .ok ⟨I.functions.map (·.name), I.operators.map (·.name), I.constants⟩ := by
  have hL : W.serverListing t = .ok I.listing := by rw [← serverInfos_listing, hI]; rfl
  have hs := C111_server W t _ hL
  have : Informs I.functions ∧ Informs I.operators := by
    cases t with
    | none => exact decimal_informs W hI hs
    | some t => cases t with
      | decimal => exact decimal_informs W hI hs
      | float => exact decimal_informs W hI hs
      | integer => exact integer_informs W hI hs
      | complex => exact complex_informs W hI hs
      | binary => exact binary_informs W hI hs
  exact ⟨this.1, this.2, hL⟩

/-- C116. The same of what the `eval` program lists. -/
theorem C116_cli (W : World D F T) (t : NumberType) (I : Infos) (hI : W.cliInfos t = .ok I) : Informs I.functions ∧ Informs I.operators := by
  have hL : W.cliListing t = .ok I.listing := by rw [← cliInfos_listing, hI]; rfl
  have hs := C111_cli W t _ hL
  cases t with
  | decimal => exact decimal_informs W hI hs
  | float => exact float_informs W hI hs
  | integer => exact integer_informs W hI hs
  | complex => exact complex_informs W hI hs
  | binary => exact binary_informs W hI hs

/-- An entry of the server's listing of binary operators. -/
example : ∃ I, (Demo.world true).serverInfos (some .binary) = .ok I ∧
    (⟨str "equal", [str "eq", str "equal"], some (str "Returns 1 if the given values are equal, 0 otherwise.")⟩ : FnInfo) ∈ I.operators := by
  refine ⟨_, rfl, ?_⟩
  decide +kernel

end Prexel

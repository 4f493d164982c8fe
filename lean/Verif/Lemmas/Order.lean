import Verif.Lemmas.Listing
/-!
# The order of the keys of a context
-/

namespace Prexel
variable {N V : Type} {same : Str → Str → Bool}

/-- The names of a function in the order in which they are registered: the aliases, then the name. -/
def Named.registered (f : Named V) : List Str := f.aliases ++ [f.name]

theorem insert_new {m : Map V} {k : Str} {v : V} (h : Map.get same m k = none) : Map.insert same m k v = m ++ [(k, v)] := by
  simp [Map.insert, Map.containsKey, h]

theorem insertAliases_order (hs : Equiv same) (v : V) (as : List Str) (m : Map V) (h : Fresh same m as) :
    insertAliases same v as m = (.ok (), m ++ as.map fun a => (a, v)) := by
  induction as generalizing m with
  | nil => simp [insertAliases]
  | cons a as ih =>
    have hc : Map.containsKey same m a = false := by simp [Map.containsKey, h.1]
    unfold insertAliases
    rw [hc]
    simp only [Bool.false_eq_true, if_false]
    rw [ih _ (fresh_congr h.2.2 fun b hb => by rw [Map.get_insert hs, h.2.1 b hb]; simp), insert_new h.1]
    simp

theorem addAs_order (hs : Equiv same) (debug : Bool) (m : Map V) (f : Named V) (hv : checkTokenName f.name = .ok ())
    (hf : Fresh same m f.names) : addAs same debug m f f.name = (.ok (), m ++ f.registered.map fun a => (a, f.fn)) := by
  have hd : debugCheck debug f.name = .ok () := by cases debug <;> simp [debugCheck, hv]
  have hn : Map.containsKey same m f.name = false := by simp [Map.containsKey, hf.1]
  unfold addAs
  rw [hd]
  simp only [hn, Bool.false_eq_true, if_false]
  rw [insertAliases_order hs _ _ _ hf.2.2]
  simp only [Named.registered, List.map_append, List.map_cons, List.map_nil]
  rw [insert_new]
  · simp
  · have h1 := hf.1
    have h2 := hf.2.1
    generalize f.aliases = as at h2 ⊢
    simp only [Map.get] at h1 ⊢
    simp only [Option.map_eq_none_iff, List.find?_eq_none] at h1 ⊢
    intro e he
    rcases List.mem_append.1 he with he | he
    · exact h1 e he
    · obtain ⟨a, ha, rfl⟩ := List.mem_map.1 he
      intro hc
      have := h2 a ha
      rw [hs.symm _ _ hc] at this
      cases this

theorem addAll_order (hs : Equiv same) (debug : Bool) (fs : List (Named V)) (m : Map V) (hv : ∀ f ∈ fs, checkTokenName f.name = .ok ())
    (hf : Fresh same m (fs.flatMap Named.names)) :
    addAll same debug m fs = .ok (m ++ fs.flatMap fun f => f.registered.map fun a => (a, f.fn)) := by
  induction fs generalizing m with
  | nil => simp [addAll]
  | cons f fs ih =>
    rw [List.flatMap_cons, fresh_append] at hf
    obtain ⟨h1, h2, h3⟩ := hf
    have ha := addAs_order hs debug m f (hv f (by simp)) h1
    have hget := addAs_ok hs debug m f f.name (by rw [ha])
    rw [ha] at hget
    unfold addAll
    rw [ha]
    simp only
    rw [ih _ (fun g hg => hv g (by simp [hg])) (fresh_congr h2 (by
        intro b hb
        rw [hget b, if_neg]
        rw [List.any_eq_true]
        rintro ⟨a, ha', hab⟩
        rw [h3 a ha' b hb] at hab
        cases hab))]
    simp

theorem constants_order (K : Keys) (debug : Bool) (c : Context N) (cs : List (Str × N)) (os : List (Op N))
    (hvar : c.variables = []) (hv : ∀ e ∈ cs, checkTokenName e.1 = .ok ()) (hf : Fresh K.same c.constants (cs.map (·.1))) :
    c.runUnwrap K debug (cs.map (fun e => Op.addConstant e.1 e.2) ++ os) = { c with constants := c.constants ++ cs }.runUnwrap K debug os := by
  induction cs generalizing c with
  | nil => simp
  | cons e cs ih =>
    have hd : debugCheck debug e.1 = .ok () := by cases debug <;> simp [debugCheck, hv e (by simp)]
    have hrun : c.run K debug (Op.addConstant e.1 e.2) = (.ok none, { c with constants := c.constants ++ [e] }) := by
      simp [Context.run, hd, hvar, Map.keys, insert_new hf.1]
    have := ih { c with constants := c.constants ++ [e] } hvar (fun x hx => hv x (by simp [hx]))
      (fresh_congr hf.2.2 (by
        intro b hb
        rw [← insert_new hf.1, Map.get_insert K.equiv, hf.2.1 b hb]; simp))
    simp only [List.map_cons, List.cons_append, Context.runUnwrap, hrun]
    rw [this]
    simp

/-- The entries of a table in the order of registration. -/
def entries (fs : List (Named V)) : Map V := fs.flatMap fun f => f.registered.map fun a => (a, f.fn)

theorem keys_entries (fs : List (Named V)) : Map.keys (entries fs) = fs.flatMap Named.registered := by
  simp only [entries, Map.keys, List.map_flatMap, List.map_map, Function.comp_def]
  simp

/-- The context built from tables, as it is. -/
theorem build_order (K : Keys) (debug : Bool) (config : Config) {cs : List (Str × N)} {bs : List (Named (BinFn N))}
    {us : List (Named (UnFn N))} {fs : List (Named (Fn N))} (h : Tables cs bs us fs) :
    (Context.withConfig config).runUnwrap K debug (buildOps cs bs us fs) = .ok ⟨[], cs, entries fs, entries us, entries bs, config⟩ := by
  have mem : ∀ {W : Type} {l : List (Named W)} (f : Named W), f ∈ l → f.name ∈ l.flatMap Named.names :=
    fun f hf => List.mem_flatMap.mpr ⟨f, hf, by simp [Named.names]⟩
  unfold buildOps
  rw [constants_order K debug (Context.withConfig config) cs _ rfl (fun e he => (h.constants.1 e.1 (List.mem_map.mpr ⟨e, he, rfl⟩)).1)
    (fresh_good K h.constants), runUnwrap_binary]
  simp only [Context.withConfig, List.nil_append]
  rw [addAll_order K.equiv debug bs [] (fun f hf => (h.binary.1 _ (mem f hf)).1) (fresh_good K h.binary)]
  simp only [Res.bind_ok]
  rw [runUnwrap_unary]
  simp only
  rw [addAll_order K.equiv debug us [] (fun f hf => (h.unary.1 _ (mem f hf)).1) (fresh_good K h.unary)]
  simp only [Res.bind_ok]
  have := runUnwrap_functions K debug (⟨[], cs, [], entries us, entries bs, config⟩ : Context N) fs []
  simp only [List.append_nil] at this
  simp only [List.nil_append]
  refine this.trans ?_
  rw [addAll_order K.equiv debug fs [] (fun f hf => (h.functions.1 _ (mem f hf)).1) (fresh_good K h.functions)]
  simp only [Res.bind_ok, List.nil_append]
  rfl

end Prexel

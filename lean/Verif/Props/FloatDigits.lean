import Verif.Props.JsonNumbers
/-!
# C149: floats with few digits
-/

namespace Prexel
open B64 Json

/-- C149. A float literal with at most 15 digits and at most 300 places is answered with a numeral for exactly the number that was written. -/
theorem C149_literal {rules : List Rule} (hr : rules = defaultRules ∨ rules = replRules false) (ctx : Ctx B64) {s : Str} {c p : ℕ}
    (h : WrittenPlaces s c p) (hc : c < 10 ^ 15) (hp : p ≤ 300) :
    ∃ x, eval fromStr (split rules) ctx s = .ok x ∧ Stands (toStr x) ((c : ℚ) / 10 ^ p) := by
  have hst := h.stands
  refine ⟨_, eval_word _ (plain_of hr) ctx (.numeral hst.numeral) (fromStr_stands hst), ?_⟩
  have e : (c : ℚ) / 10 ^ p = c * 10 ^ (-(p : ℤ)) := by rw [zpow_neg, zpow_natCast, div_eq_mul_inv]
  obtain ⟨d, j, h1, -, h3⟩ := toStr_exact false hc (ten_units (p := -(p : ℤ)) (by omega)) (by omega)
  simp only [Bool.false_eq_true, if_false, List.nil_append] at h1
  rw [e, h1, ← h3]
  exact plain_stands d j

/-- C149 at the server. -/
theorem C149_server {D T : Type} (W : World D B64 T) (hread : W.readFloat = fromStr) (hshow : W.showFloat = toStr) (r : Request B64)
    (htype : r.numberType = .float) (hvars : r.variables.getD [] = []) {c p : ℕ} (h : WrittenPlaces r.expression c p) (hc : c < 10 ^ 15) (hp : p ≤ 300) :
    ∃ t, W.evalExpression r = .result t ∧ Stands t ((c : ℚ) / 10 ^ p) := by
  have htype' : r.type.getD .decimal = .float := by rw [← htype]; unfold Request.numberType; cases r.type <;> rfl
  have ht : W.texts r = [] := by simp [World.texts, hvars]
  obtain ⟨x, hx, hv⟩ := checked_build W.K W.debug true W.f (W.f.num W.floatNum) serverConfig _ _ rfl rfl
  obtain ⟨z, h1, h2⟩ := C149_literal (.inl rfl) ((x.view W.K).withVariables W.floatBackend.readVariable []) h hc hp
  refine ⟨toStr z, ?_, h2⟩
  unfold World.evalExpression
  simp only [htype', ht]
  rw [serve_result _ _ _ _ _ (by simp)]
  refine ⟨x, hx, (fun _ he => by cases he), z, ?_, by show W.showFloat z = _; rw [hshow]⟩
  show eval W.readFloat (split defaultRules) _ _ = _
  rw [hread]
  exact h1

example : Demo.ask "{\"expression\":\"0123.4500\", \"type\":\"float\"}" = some (200, Prexel.str "{\"result\":\"123.45\",\"error\":null}") := by decide +kernel

/-- C149 does not hold for the results of sums: the sum of the doubles that 0.1 and 0.2 are read as has more digits. -/
theorem C149_counterexample : ∃ a b, fromStr (Prexel.str "0.1") = some a ∧ fromStr (Prexel.str "0.2") = some b ∧
    toStr (add a b) = Prexel.str "0.30000000000000004" :=
  ⟨lit (1 / 10), lit (2 / 10), by decide +kernel, by decide +kernel, by decide +kernel⟩

end Prexel

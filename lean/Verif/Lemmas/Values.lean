import Verif.Props.Session
/-!
# Lemmas: adding variables and constants
-/

namespace Prexel

theorem runAll_values {N : Type} (K : Keys) (debug : Bool) {os : List (Op N)} (h : OnlyValues os) (c : Context N) :
    (c.runAll K debug os).config = c.config ∧ (c.runAll K debug os).functions = c.functions ∧ (c.runAll K debug os).unary = c.unary ∧
      (c.runAll K debug os).binary = c.binary := by
  induction os generalizing c with
  | nil => exact ⟨rfl, rfl, rfl, rfl⟩
  | cons o os ih =>
    obtain ⟨h1, h2, h3, h4⟩ := ih (fun o ho => h o (by simp [ho])) (c.run K debug o).2
    simp only [Context.runAll]
    rw [h1, h2, h3, h4]
    rcases h o (by simp) with ⟨n, v, rfl⟩ | ⟨n, v, rfl⟩
    · rcases setVariable_cases K debug c n v with ⟨e, h⟩ | ⟨e, h⟩ <;> rw [h] <;> exact ⟨rfl, rfl, rfl, rfl⟩
    · simp only [Context.run]
      split
      · exact ⟨rfl, rfl, rfl, rfl⟩
      · exact ⟨rfl, rfl, rfl, rfl⟩
      · split <;> exact ⟨rfl, rfl, rfl, rfl⟩


end Prexel

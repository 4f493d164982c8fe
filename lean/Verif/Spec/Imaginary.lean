import Verif.Spec.Words
/-!
# Specification: words of texts with imaginary numbers
-/

namespace Prexel
variable {N : Type}

/-- `Joined parse ws ws'`: the words `ws'` are the words `ws`, with every number and an `i` directly behind it taken as one word, which must
be a number again. -/
inductive Joined (parse : Str → Option N) : List Str → List Str → Prop
  | nil : Joined parse [] []
  | keep (w : Str) {ws ws' : List Str} (hw : parse w = none ∨ ws.head? ≠ some ['i']) (h : Joined parse ws ws') : Joined parse (w :: ws) (w :: ws')
  | join (w : Str) {ws ws' : List Str} (hw : parse w ≠ none) (hi : parse (w ++ ['i']) ≠ none) (h : Joined parse ws ws') :
      Joined parse (w :: ['i'] :: ws) ((w ++ ['i']) :: ws')

/-- `i` is a number, a variable or a constant. -/
def ReadsI (parse : Str → Option N) (ctx : Ctx N) : Prop :=
  parse ['i'] ≠ none ∨ ctx.getVariable ['i'] ≠ none ∨ ctx.getConstant ['i'] ≠ none

end Prexel

import Verif.Model.Basic
/-!
# Sorting adapters and option helpers

Models `prexel/src/utils/extensions/iterator_ext.rs` and `option_ext.rs`. An iterator is the list of its items. `Vec::sort`, `Vec::sort_by` and
`Vec::sort_by_key` of the Rust standard library are stable sorts; they are modelled by the stable merge sort of Lean's library, which is the
same function wherever the order is a total one. With any other order the standard library may panic: nothing is said about it.
-/
namespace Prexel
variable {A B : Type}

/-- `IteratorExt::sorted_by`, prexel/src/utils/extensions/iterator_ext.rs 27-35. -/
def sortedBy (compare : A → A → Ordering) (items : List A) : List A := items.mergeSort fun a b => compare a b != .gt

/-- `IteratorExt::sorted`, prexel/src/utils/extensions/iterator_ext.rs 12-20; `compare` is `Ord::cmp` of the items. -/
def sorted (compare : A → A → Ordering) (items : List A) : List A := sortedBy compare items

/-- `IteratorExt::sorted_by_key`, prexel/src/utils/extensions/iterator_ext.rs 42-51; `compare` is `Ord::cmp` of the keys. -/
def sortedByKey (compare : B → B → Ordering) (key : A → B) (items : List A) : List A := sortedBy (fun a b => compare (key a) (key b)) items

/-- `OptionExt::contains_some`, prexel/src/utils/extensions/option_ext.rs 17-26; `eq` is the `PartialEq` of the two types. -/
def containsSome (eq : A → B → Bool) : Option B → A → Bool
  | some y, x => eq x y
  | none, _ => false

/-- `OptionStrExt::contains_str` for `Option<String>` and `Option<&String>`, prexel/src/utils/extensions/option_ext.rs 29-49. -/
def containsStr : Option Str → Str → Bool
  | some s, value => s == value
  | none, _ => false

end Prexel

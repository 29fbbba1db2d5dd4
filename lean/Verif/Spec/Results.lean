import Verif.Model.Results

/-!
# What results, saved files, tables and heat maps should hold
-/

namespace Flix

/-! ## Nested dictionaries -/

/-- The value `v`, no dictionary itself, stands at the end of the path `p`. -/
inductive LeafAt : List (String × RTree) → List String → RTree → Prop
  | here {kvs k v} : (k, v) ∈ kvs → v.dict? = none → LeafAt kvs [k] v
  | under {kvs k sub p v} : (k, RTree.dict sub) ∈ kvs → LeafAt sub p v → LeafAt kvs (k :: p) v

/-- `sub` is the dictionary itself or one nested in it. -/
inductive SubDict : List (String × RTree) → List (String × RTree) → Prop
  | self {kvs} : SubDict kvs kvs
  | under {kvs k sub d} : (k, RTree.dict sub) ∈ kvs → SubDict sub d → SubDict kvs d

/-- A nested dictionary: no key twice on one level. -/
def Proper (kvs : List (String × RTree)) : Prop := ∀ d, SubDict kvs d → (d.map (·.1)).Nodup

/-- No key is empty. -/
def Named (kvs : List (String × RTree)) : Prop := ∀ d, SubDict kvs d → ∀ q ∈ d, q.1 ≠ ""

/-- The key made of a path. -/
def joinPath : List String → String
  | [] => ""
  | [k] => k
  | k :: p => k ++ "__" ++ joinPath p

/-! ## Saved values -/

/-- Plain JSON data. -/
inductive Plain : PyVal → Prop
  | none : Plain .none
  | bool (b) : Plain (.bool b)
  | int (z) : Plain (.int z)
  | float (q) : Plain (.float q)
  | str (s) : Plain (.str s)
  | list {xs} : (∀ x ∈ xs, Plain x) → Plain (.list xs)
  | dict {kvs} : (∀ q ∈ kvs, Plain q.2) → Plain (.dict kvs)

/-- Values of results as the solver leaves them: nested dictionaries of plain values and of series with at least one entry. -/
inductive ResultValue : PyVal → Prop
  | none : ResultValue .none
  | bool (b) : ResultValue (.bool b)
  | int (z) : ResultValue (.int z)
  | float (q) : ResultValue (.float q)
  | str (s) : ResultValue (.str s)
  | arr {xs} : xs ≠ [] → ResultValue (.arr xs)
  | dict {kvs} : (∀ q ∈ kvs, ResultValue q.2) → ResultValue (.dict kvs)

/-- The value is a number. -/
inductive NumberIs : PyVal → ℚ → Prop
  | bool (b : Bool) : NumberIs (.bool b) (if b then 1 else 0)
  | int (z : Int) : NumberIs (.int z) z
  | float (q) : NumberIs (.float q) q
  | npInt (z : Int) : NumberIs (.npInt z) z
  | npFloat (q) : NumberIs (.npFloat q) q
  | series {v q} : NumberIs v q → NumberIs (.series v) q

/-- The entries of a sequence of any kind. -/
inductive Entries : PyVal → List PyVal → Prop
  | list (xs) : Entries (.list xs) xs
  | tuple (xs) : Entries (.tuple xs) xs
  | set (xs) : Entries (.set xs) xs
  | objArr (xs) : Entries (.objArr xs) xs

/-- `w` is `v` after saving and loading: numbers, strings, dates as strings; series and sequences of numbers as arrays, other sequences as
lists, without entries as an empty list; dictionaries and time series by their contents. -/
inductive Same : PyVal → PyVal → Prop
  | none : Same .none .none
  | bool (b) : Same (.bool b) (.bool b)
  | int (z) : Same (.int z) (.int z)
  | float (q) : Same (.float q) (.float q)
  | str (s) : Same (.str s) (.str s)
  | npInt (z) : Same (.npInt z) (.int z)
  | npFloat (q) : Same (.npFloat q) (.float q)
  | datetime (iso) : Same (.datetime iso) (.str iso)
  | series {v w} : Same v w → Same (.series v) w
  | dict {kvs kws} : kvs.map (·.1) = kws.map (·.1) → (∀ i (h : i < kvs.length) (h' : i < kws.length), Same kvs[i].2 kws[i].2) →
      Same (.dict kvs) (.dict kws)
  | arr {xs} : xs ≠ [] → Same (.arr xs) (.arr xs)
  | noEntries : Same (.arr []) (.list [])
  | numbers {v xs qs} : Entries v xs → xs ≠ [] → List.Forall₂ NumberIs xs qs → Same v (.arr qs)
  | entries {v xs ys} : Entries v xs → (xs = [] ∨ ∃ x ∈ xs, ∀ q, ¬ NumberIs x q) → xs.length = ys.length →
      (∀ i (h : i < xs.length) (h' : i < ys.length), Same xs[i] ys[i]) → Same v (.list ys)

end Flix

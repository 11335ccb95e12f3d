import Verif.Spec.RawMain

/-! # Specification vocabulary for filters applied one after the other (C114) -/
namespace Fp.Spec
open Fp

/-- The later of two starts, if any is given. -/
def laterStart : Option ℚ → Option ℚ → Option ℚ
  | none, y => y
  | x, none => x
  | some a, some b => some (max a b)

/-- The earlier of two ends, if any is given. -/
def earlierStop : Option ℚ → Option ℚ → Option ℚ
  | none, y => y
  | x, none => x
  | some a, some b => some (min a b)

/-- The pattern options of `a` and `b` are the same. -/
def SamePattern (a b : FilterArgs) : Prop := a.pattern = b.pattern ∧ a.mask = b.mask ∧ a.invert = b.invert

/-- The pattern options of `c` stand for those of `f` followed by those of `g`: only one of them has any, both have the same,
or both are masks, where the bits common to both stay; both are inverted masks, where the bits of both are removed. -/
inductive Patterns (f g c : FilterArgs) : Prop
  | second (h : f.pattern = none) (hc : SamePattern c g)
  | first (h : g.pattern = none) (hc : SamePattern c f)
  | same (h : SamePattern f g) (hc : SamePattern c f)
  | masks (a b : Nat) (hf : f.pattern = some a ∧ f.mask = true ∧ f.invert = false)
      (hg : g.pattern = some b ∧ g.mask = true ∧ g.invert = false) (hc : c.pattern = some (a &&& b) ∧ c.mask = true ∧ c.invert = false)
  | inverted (a b : Nat) (hf : f.pattern = some a ∧ f.mask = true ∧ f.invert = true)
      (hg : g.pattern = some b ∧ g.mask = true ∧ g.invert = true) (hc : c.pattern = some (a ||| b) ∧ c.mask = true ∧ c.invert = true)

/-- The filter options `c` stand for `f` followed by `g`: the window is the intersection of the two windows. -/
def Combined (f g c : FilterArgs) : Prop :=
  Patterns f g c ∧ c.start = laterStart f.start g.start ∧ c.stop = earlierStop f.stop g.stop

end Fp.Spec

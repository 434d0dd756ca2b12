import Mathlib.Tactic.Attr.Register

/-- What is meant by a value being in order, unfolded. -/
register_simp_attr vok
/-- What is required of a node, unfolded. -/
register_simp_attr vwf

import Lean
/-
Simp sets used to evaluate helper programs.
-/
register_simp_attr rrun
register_simp_attr rregs

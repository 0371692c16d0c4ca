import Verif.Spec.WholeRun
/-!
# Specification of the symmetries of a simulation (C87)

A view says how the fields, the particles and the kinds of particles of a simulation look after a reflection, an exchange
or a turn of the axes, a move by whole cells, or with opposite charges. E and J are vectors, B is a pseudovector; the
components are stored between the grid points, which is where the `- 1` of the reflections come from. Nothing here refers
to the program.
-/
namespace Verif.Symmetry
open Verif.Maxwell Verif.Pusher Verif.Deposit Verif.WholeRun Verif.PicStep

variable {k : Nat}

/-- a change of the view: what becomes of E and J, of B, of a kind of particles, of a position and of a momentum -/
structure View (k : Nat) where
  ej : V3 k → V3 k
  b : V3 k → V3 k
  kind : Kind → Kind
  pos : (Fin k → ℚ) → Fin k → ℚ
  mom : Mom → Mom

/-- a particle seen in another view -/
def View.ptc (T : View k) (p : Ptc k) : Ptc k := ⟨T.pos p.pos, T.mom p.mom⟩

/-- fields seen in another view -/
def View.fields (T : View k) (G : GF k) : GF k := ⟨T.ej G.e, T.b G.b, T.ej G.j⟩
/-- particles seen in another view -/
def View.cloud (T : View k) (cl : List (Kind × List (Ptc k))) : List (Kind × List (Ptc k)) :=
  cl.map fun s => (T.kind s.1, s.2.map T.ptc)
/-- a simulation seen in another view -/
def View.world (T : View k) (W : World k) : World k := ⟨T.fields W.fld, T.cloud W.cloud⟩

/-- the axes exchanged -/
def ex2 {α : Type} (u : Fin 2 → α) : Fin 2 → α := ![u 1, u 0]

/-- reflection at the diagonal: the axes are exchanged; B is a pseudovector -/
def swap2 : View 2 where
  ej e := ![fun c => e 1 (ex2 c), fun c => e 0 (ex2 c), fun c => e 2 (ex2 c)]
  b b := ![fun c => -b 1 (ex2 c), fun c => -b 0 (ex2 c), fun c => -b 2 (ex2 c)]
  kind := id
  pos := ex2
  mom p := ⟨p.uy, p.ux, p.uz, p.invGamma, p.w⟩

/-- reflection `x → -x`; quantities between grid points go to the point on the other side -/
def mirror2 : View 2 where
  ej e := ![fun c => -e 0 ![-c 0 - 1, c 1], fun c => e 1 ![-c 0, c 1], fun c => e 2 ![-c 0, c 1]]
  b b := ![fun c => b 0 ![-c 0, c 1], fun c => -b 1 ![-c 0 - 1, c 1], fun c => -b 2 ![-c 0 - 1, c 1]]
  kind := id
  pos x := ![-x 0, x 1]
  mom p := ⟨-p.ux, p.uy, p.uz, p.invGamma, p.w⟩

/-- reflection of the direction `z` the grid does not have -/
def upside2 : View 2 where
  ej e := ![fun c => e 0 c, fun c => e 1 c, fun c => -e 2 c]
  b b := ![fun c => -b 0 c, fun c => -b 1 c, fun c => b 2 c]
  kind := id
  pos := id
  mom p := ⟨p.ux, p.uy, -p.uz, p.invGamma, p.w⟩

/-- everything moved by `z` whole cells of size `d` -/
def move {k : Nat} (d : Fin k → ℚ) (z : Fin k → Int) : View k where
  ej e := fun f c => e f fun a => c a - z a
  b b := fun f c => b f fun a => c a - z a
  kind := id
  pos x := fun a => x a + z a * d a
  mom := id

/-- all charges and fields with the opposite sign -/
def charge {k : Nat} : View k where
  ej e := fun f c => -e f c
  b b := fun f c => -b f c
  kind κ := ⟨-κ.q, κ.m⟩
  pos := id
  mom := id

/-- the axes turned: the first new axis is the second old one -/
def rot3 {α : Type} (u : Fin 3 → α) : Fin 3 → α := ![u 1, u 2, u 0]
/-- the axes turned back -/
def back3 {α : Type} (u : Fin 3 → α) : Fin 3 → α := ![u 2, u 0, u 1]
/-- the first two axes exchanged -/
def ex3 {α : Type} (u : Fin 3 → α) : Fin 3 → α := ![u 1, u 0, u 2]

/-- rotation about the diagonal -/
def turn3 : View 3 where
  ej e := ![fun c => e 1 (back3 c), fun c => e 2 (back3 c), fun c => e 0 (back3 c)]
  b b := ![fun c => b 1 (back3 c), fun c => b 2 (back3 c), fun c => b 0 (back3 c)]
  kind := id
  pos := rot3
  mom p := ⟨p.uy, p.uz, p.ux, p.invGamma, p.w⟩

/-- reflection at the plane `x = y`; B is a pseudovector -/
def swap3 : View 3 where
  ej e := ![fun c => e 1 (ex3 c), fun c => e 0 (ex3 c), fun c => e 2 (ex3 c)]
  b b := ![fun c => -b 1 (ex3 c), fun c => -b 0 (ex3 c), fun c => -b 2 (ex3 c)]
  kind := id
  pos := ex3
  mom p := ⟨p.uy, p.ux, p.uz, p.invGamma, p.w⟩

/-- reflection `x → -x` -/
def mirror3 : View 3 where
  ej e := ![fun c => -e 0 ![-c 0 - 1, c 1, c 2], fun c => e 1 ![-c 0, c 1, c 2], fun c => e 2 ![-c 0, c 1, c 2]]
  b b := ![fun c => b 0 ![-c 0, c 1, c 2], fun c => -b 1 ![-c 0 - 1, c 1, c 2], fun c => -b 2 ![-c 0 - 1, c 1, c 2]]
  kind := id
  pos x := ![-x 0, x 1, x 2]
  mom p := ⟨-p.ux, p.uy, p.uz, p.invGamma, p.w⟩

/-! ## sequences of changes -/

/-- Specification: the elementary changes of the view in 2D: exchange of the axes, reflection `x → -x`, reflection of the
direction `z` out of the plane, a move by whole cells, opposite charges and fields -/
inductive Move2
  | swap
  | mirror
  | upside
  | shift (z : Fin 2 → Int)
  | charge

/-- the view that belongs to a change, for cells of size `d` -/
def Move2.view (d : Fin 2 → ℚ) : Move2 → View 2
  | .swap => swap2
  | .mirror => mirror2
  | .upside => upside2
  | .shift z => move d z
  | .charge => Symmetry.charge

/-- numbers that belong to the axes (cells, sizes of cells), after the change -/
def Move2.axes {α : Type} (u : Fin 2 → α) : Move2 → Fin 2 → α
  | .swap => ex2 u
  | _ => u

/-- Specification: numbers that belong to the axes after a sequence of changes -/
def axes2 {α : Type} : List Move2 → (Fin 2 → α) → Fin 2 → α
  | [], u => u
  | m :: l, u => axes2 l (m.axes u)

/-- Specification: a simulation on cells of size `d` after a sequence of changes of the view -/
def moved2 : List Move2 → (Fin 2 → ℚ) → World 2 → World 2
  | [], _, W => W
  | m :: l, d, W => moved2 l (m.axes d) ((m.view d).world W)

/-- Specification: the elementary changes of the view in 3D: a turn of the axes, exchange of the first two axes,
reflection `x → -x`, a move by whole cells, opposite charges and fields -/
inductive Move3
  | turn
  | swap
  | mirror
  | shift (z : Fin 3 → Int)
  | charge

/-- the view that belongs to a change, for cells of size `d` -/
def Move3.view (d : Fin 3 → ℚ) : Move3 → View 3
  | .turn => turn3
  | .swap => swap3
  | .mirror => mirror3
  | .shift z => move d z
  | .charge => Symmetry.charge

/-- numbers that belong to the axes, after the change -/
def Move3.axes {α : Type} (u : Fin 3 → α) : Move3 → Fin 3 → α
  | .turn => rot3 u
  | .swap => ex3 u
  | _ => u

/-- Specification: numbers that belong to the axes after a sequence of changes -/
def axes3 {α : Type} : List Move3 → (Fin 3 → α) → Fin 3 → α
  | [], u => u
  | m :: l, u => axes3 l (m.axes u)

/-- Specification: a simulation on cells of size `d` after a sequence of changes of the view -/
def moved3 : List Move3 → (Fin 3 → ℚ) → World 3 → World 3
  | [], _, W => W
  | m :: l, d, W => moved3 l (m.axes d) ((m.view d).world W)

end Verif.Symmetry

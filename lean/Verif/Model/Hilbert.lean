import Mathlib.Init
/-!
# The generalized Hilbert curve

Models `src/lambdapic/core/patch/hilbert.py`. A generator is the list of the values it yields. The recursion is modelled as
a partial function: a call that never returns has the value `none`. Python integers are unbounded, `//` rounds down (as
`Int.fdiv`).
-/
namespace Verif.Hilbert

/-- a cell or a vector (tuples in the code) -/
structure V2 where
  x : Int
  y : Int
deriving DecidableEq, Repr

structure V3 where
  x : Int
  y : Int
  z : Int
deriving DecidableEq, Repr

instance : Add V2 := ⟨fun a b => ⟨a.x + b.x, a.y + b.y⟩⟩
instance : Sub V2 := ⟨fun a b => ⟨a.x - b.x, a.y - b.y⟩⟩
instance : Neg V2 := ⟨fun a => ⟨-a.x, -a.y⟩⟩
instance : Add V3 := ⟨fun a b => ⟨a.x + b.x, a.y + b.y, a.z + b.z⟩⟩
instance : Sub V3 := ⟨fun a b => ⟨a.x - b.x, a.y - b.y, a.z - b.z⟩⟩
instance : Neg V3 := ⟨fun a => ⟨-a.x, -a.y, -a.z⟩⟩

/-- `sgn` (hilbert.py 54-55) -/
def sgn (x : Int) : Int := if x < 0 then -1 else if x > 0 then 1 else 0

/-- `w = abs(ax + ay)` -/
def len2 (a : V2) : Nat := (a.x + a.y).natAbs
/-- `w = abs(ax + ay + az)` -/
def len3 (a : V3) : Nat := (a.x + a.y + a.z).natAbs
/-- `(sgn(ax), sgn(ay))` -/
def dir2 (a : V2) : V2 := ⟨sgn a.x, sgn a.y⟩
def dir3 (a : V3) : V3 := ⟨sgn a.x, sgn a.y, sgn a.z⟩
/-- `(ax//2, ay//2)` -/
def half2 (a : V2) : V2 := ⟨a.x.fdiv 2, a.y.fdiv 2⟩
def half3 (a : V3) : V3 := ⟨a.x.fdiv 2, a.y.fdiv 2, a.z.fdiv 2⟩

/-- the loops of the trivial fills (hilbert.py 65-77, 145-161): `n` cells from `p` in direction `d` -/
def run2 (p d : V2) : Nat → List V2
  | 0 => []
  | n + 1 => p :: run2 (p + d) d n

def run3 (p d : V3) : Nat → List V3
  | 0 => []
  | n + 1 => p :: run3 (p + d) d n

/-- `if (w2 % 2) and (w > 2): ax2 += dax` (hilbert.py 85-88, 93-95) -/
def even2 (a : V2) : V2 := if len2 (half2 a) % 2 = 1 ∧ len2 a > 2 then half2 a + dir2 a else half2 a
/-- the same in three dimensions (hilbert.py 171-179) -/
def even3 (a : V3) : V3 := if len3 (half3 a) % 2 = 1 ∧ len3 a > 2 then half3 a + dir3 a else half3 a

/-- `generate2d` (hilbert.py 57-102); `p` is `(x, y)` -/
def generate2d (p a b : V2) : Option (List V2) :=
  let w := len2 a
  let h := len2 b
  let da := dir2 a
  let db := dir2 b
  if h = 1 then some (run2 p da w)
  else if w = 1 then some (run2 p db h)
  else if 2 * w > 3 * h then do
    let a2 := even2 a
    let l1 ← generate2d p a2 b
    let l2 ← generate2d (p + a2) (a - a2) b
    return l1 ++ l2
  else do
    let a2 := half2 a
    let b2 := even2 b
    let l1 ← generate2d p b2 a2
    let l2 ← generate2d (p + b2) a (b - b2)
    let l3 ← generate2d (p + (a - da) + (b2 - db)) (-b2) (-(a - a2))
    return l1 ++ l2 ++ l3
partial_fixpoint

/-- `gilbert2d` (hilbert.py 40-51) -/
def gilbert2d (width height : Int) : Option (List V2) :=
  if width ≥ height then generate2d ⟨0, 0⟩ ⟨width, 0⟩ ⟨0, height⟩
  else generate2d ⟨0, 0⟩ ⟨0, height⟩ ⟨width, 0⟩

/-- `generate3d` (hilbert.py 131-249) -/
def generate3d (p a b c : V3) : Option (List V3) :=
  let w := len3 a
  let h := len3 b
  let d := len3 c
  let da := dir3 a
  let db := dir3 b
  let dc := dir3 c
  if h = 1 ∧ d = 1 then some (run3 p da w)
  else if w = 1 ∧ d = 1 then some (run3 p db h)
  else if w = 1 ∧ h = 1 then some (run3 p dc d)
  else
    let a2 := even3 a
    let b2 := even3 b
    let c2 := even3 c
    if 2 * w > 3 * h ∧ 2 * w > 3 * d then do
      let l1 ← generate3d p a2 b c
      let l2 ← generate3d (p + a2) (a - a2) b c
      return l1 ++ l2
    else if 3 * h > 4 * d then do
      let l1 ← generate3d p b2 c a2
      let l2 ← generate3d (p + b2) a (b - b2) c
      let l3 ← generate3d (p + (a - da) + (b2 - db)) (-b2) c (-(a - a2))
      return l1 ++ l2 ++ l3
    else if 3 * d > 4 * h then do
      let l1 ← generate3d p c2 a2 b
      let l2 ← generate3d (p + c2) a b (c - c2)
      let l3 ← generate3d (p + (a - da) + (c2 - dc)) (-c2) (-(a - a2)) b
      return l1 ++ l2 ++ l3
    else do
      let l1 ← generate3d p b2 c2 a2
      let l2 ← generate3d (p + b2) c a2 (b - b2)
      let l3 ← generate3d (p + (b2 - db) + (c - dc)) a (-b2) (-(c - c2))
      let l4 ← generate3d (p + (a - da) + b2 + (c - dc)) (-c) (-(a - a2)) (b - b2)
      let l5 ← generate3d (p + (a - da) + (b2 - db)) (-b2) c2 (-(a - a2))
      return l1 ++ l2 ++ l3 ++ l4 ++ l5
partial_fixpoint

/-- `gilbert3d` (hilbert.py 105-128) -/
def gilbert3d (width height depth : Int) : Option (List V3) :=
  if width ≥ height ∧ width ≥ depth then generate3d ⟨0, 0, 0⟩ ⟨width, 0, 0⟩ ⟨0, height, 0⟩ ⟨0, 0, depth⟩
  else if height ≥ width ∧ height ≥ depth then generate3d ⟨0, 0, 0⟩ ⟨0, height, 0⟩ ⟨width, 0, 0⟩ ⟨0, 0, depth⟩
  else generate3d ⟨0, 0, 0⟩ ⟨0, 0, depth⟩ ⟨width, 0, 0⟩ ⟨0, height, 0⟩

end Verif.Hilbert

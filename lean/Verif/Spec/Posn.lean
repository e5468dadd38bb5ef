/-!
# Directions in the sky and their coordinates

A frame gives every direction two angles, and every two angles in range are those of one direction.
-/
namespace Verif.Posn

/-- Frames with the times and places that belong to them. -/
inductive Frame
  | icrs
  | fk4
  | fk5 (equinox : Rat)
  | apparent (t : Rat)
  | galactic
  | ecliptic (t : Rat)
  | horizon (lng lat elv t : Rat)
  deriving DecidableEq

/-- Kinds of positions. -/
inductive Kind
  | equ
  | gal
  | ecl
  | hrz
  deriving DecidableEq

/-- Angles that every frame has: [0, 360) and (−90, 90). -/
def Proper (c : Rat × Rat) : Prop := 0 ≤ c.1 ∧ c.1 < 360 ∧ -90 < c.2 ∧ c.2 < 90

/-- The sky: directions `D`, their coordinates in every frame, and back. -/
structure Sky (D : Type) where
  coords : Frame → D → Rat × Rat
  point : Frame → Rat × Rat → D
  point_coords : ∀ f d, point f (coords f d) = d
  coords_point : ∀ f c, Proper c → coords f (point f c) = c

/-- The frames of a kind of positions. -/
def Frame.isFor : Frame → Kind → Bool
  | .icrs, .equ | .fk4, .equ | .fk5 _, .equ | .apparent _, .equ => true
  | .galactic, .gal => true
  | .ecliptic _, .ecl => true
  | .horizon .., .hrz => true
  | _, _ => false

end Verif.Posn

import Verif.Spec.Posn
/-!
# Positions and their conversions: /repo/lsl/astro.py lines 680-1620 and 2050-2400, 3395-3532; /repo/lsl/transform.py

Objects of astropy are directions with a frame; `wrapped` tells a `SkyCoord` from a plain frame object.  `transform_to` keeps
the direction and the wrapping.  Distances and proper motions are left out.
-/
namespace Verif.Posn

inductive Err
  | typeError
  | valueError
  | runtimeError
  deriving DecidableEq

/-- An object of astropy. -/
structure Obj (D : Type) where
  wrapped : Bool
  frame : Frame
  dir : D

/-- `transform_to`. -/
def Obj.transformTo {D : Type} (o : Obj D) (f : Frame) : Obj D := { o with frame := f }

/-- A position of a kind: angles in degrees, and perhaps an object of astropy. -/
structure Posn (D : Type) (k : Kind) where
  c : Rat × Rat
  astropy : Option (Obj D)

/-- The range of the first angle: lines 744, 957, 1217 and 1523. -/
def okLng (k : Kind) (x : Rat) : Bool :=
  match k with
  | .equ | .hrz => decide (0 ≤ x ∧ x < 360)
  | .gal => decide (-360 ≤ x ∧ x < 360)
  | .ecl => decide (-360 ≤ x ∧ x ≤ 360)

/-- The range of the second angle. -/
def okLat (x : Rat) : Bool := decide (-90 ≤ x ∧ x ≤ 90)

/-- The constructors. -/
def new {D : Type} (k : Kind) (c : Rat × Rat) : Except Err (Posn D k) :=
  if okLng k c.1 = true then if okLat c.2 = true then .ok ⟨c, none⟩ else .error .valueError else .error .valueError

/-- The setters of the two angles. -/
def setLng {D : Type} {k : Kind} (p : Posn D k) (x : Rat) : Except Err (Posn D k) :=
  if p.astropy.isSome then .error .runtimeError else if okLng k x = true then .ok { p with c := (x, p.c.2) } else .error .valueError
def setLat {D : Type} {k : Kind} (p : Posn D k) (x : Rat) : Except Err (Posn D k) :=
  if p.astropy.isSome then .error .runtimeError else if okLat x = true then .ok { p with c := (p.c.1, x) } else .error .valueError

/-- What `from_astropy` takes: lines 715-719, 920-925, 1181-1185 and 1487-1491. -/
def takes (k : Kind) (wrapped : Bool) (f : Frame) : Bool :=
  match k with
  | .equ => if wrapped then f.isFor .equ else match f with
    | .icrs | .fk4 | .fk5 _ => true
    | _ => false
  | k => wrapped && f.isFor k

variable {D : Type} (s : Sky D)

/-- `from_astropy`. -/
def fromAstropy (k : Kind) (o : Obj D) : Except Err (Posn D k) :=
  if takes k o.wrapped o.frame = true then .ok ⟨s.coords o.frame o.dir, some o⟩ else .error .typeError

/-- `copy.copy` and pickling: `__reduce__` has the angles only. -/
def Posn.copy {k : Kind} (p : Posn D k) : Except Err (Posn D k) := new k p.c

/-- Equinox J2000 of astropy, as a Julian day of UTC: 64.184 s before noon. -/
def j2000 : Rat := 2451545 - 64184 / 86400000

/-- `J2000_UTC_JD`, line 2854. -/
def j2000Utc : Rat := 2451545

/-- The object for a position: the one it has, or a new `SkyCoord` with a frame. -/
def Posn.sky {k : Kind} (p : Posn D k) (f : Frame) : Obj D := p.astropy.getD ⟨true, f, s.point f p.c⟩

/-- An observer. -/
structure Site where
  lng : Rat
  lat : Rat
  elv : Rat

def Site.horizon (o : Site) (t : Rat) : Frame := .horizon o.lng o.lat o.elv t

/-- `get_hrz_from_equ`, lines 2053-2080. -/
def hrzFromEqu (p : Posn D .equ) (o : Site) (t : Rat) : Except Err (Posn D .hrz) :=
  fromAstropy s .hrz ((p.sky s (.fk5 j2000)).transformTo (o.horizon t))

/-- `get_equ_from_hrz`, lines 2083-2108: a frame object made from the angles. -/
def equFromHrz (p : Posn D .hrz) (o : Site) (t : Rat) : Except Err (Posn D .equ) :=
  fromAstropy s .equ ((⟨false, o.horizon t, s.point (o.horizon t) p.c⟩ : Obj D).transformTo (.fk5 j2000))

/-- `get_ecl_from_rect`, lines 2111-2127: the object is a frame object. -/
def eclFromRect (d : D) : Except Err (Posn D .ecl) := fromAstropy s .ecl ⟨false, .ecliptic j2000, d⟩

/-- `get_equ_from_ecl`, lines 2130-2149: without an object one is made that is a frame object. -/
def equFromEcl (p : Posn D .ecl) (t : Rat) : Except Err (Posn D .equ) :=
  fromAstropy s .equ ((p.astropy.getD ⟨false, .ecliptic t, s.point (.ecliptic t) p.c⟩).transformTo (.fk5 j2000))

/-- `get_ecl_from_equ`, lines 2152-2173. -/
def eclFromEqu (p : Posn D .equ) (t : Rat) : Except Err (Posn D .ecl) :=
  fromAstropy s .ecl ((p.sky s (.fk5 j2000)).transformTo (.ecliptic t))

/-- `get_equ_from_gal`, lines 2176-2195. -/
def equFromGal (p : Posn D .gal) : Except Err (Posn D .equ) := fromAstropy s .equ ((p.sky s .galactic).transformTo (.fk5 j2000))

/-- `get_gal_from_equ`, lines 2198-2218. -/
def galFromEqu (p : Posn D .equ) : Except Err (Posn D .gal) := fromAstropy s .gal ((p.sky s (.fk5 j2000)).transformTo .galactic)

/-- `get_apparent_posn` without proper motion, lines 2314-2346. -/
def apparentPosn (p : Posn D .equ) (t : Rat) : Except Err (Posn D .equ) := fromAstropy s .equ ((p.sky s (.fk5 j2000)).transformTo (.apparent t))

/-- `get_equ_prec`, lines 2353-2372. -/
def equPrec (p : Posn D .equ) (t : Rat) : Except Err (Posn D .equ) := fromAstropy s .equ ((p.sky s (.fk5 j2000)).transformTo (.fk5 t))

/-- `get_equ_prec2`, lines 2375-2395. -/
def equPrec2 (p : Posn D .equ) (t1 t2 : Rat) : Except Err (Posn D .equ) := fromAstropy s .equ ((p.sky s (.fk5 t1)).transformTo (.fk5 t2))

/-- `get_precession`, lines 3470-3488: the angles only. -/
def precession (t1 : Rat) (p : Posn D .equ) (t2 : Rat) : Except Err (Posn D .equ) :=
  fromAstropy s .equ ((⟨true, .fk5 t1, s.point (.fk5 t1) p.c⟩ : Obj D).transformTo (.fk5 t2))

/-- `B1950_to_J2000`, lines 3491-3510. -/
def toJ2000 (p : Posn D .equ) : Except Err (Posn D .equ) := fromAstropy s .equ ((p.sky s .fk4).transformTo (.fk5 j2000))

/-- `J2000_to_B1950`, lines 3513-3532. -/
def toB1950 (p : Posn D .equ) : Except Err (Posn D .equ) := fromAstropy s .equ ((p.sky s (.fk5 j2000)).transformTo .fk4)

/-- `equ_posn.to_gal`, lines 1082-1093. -/
def equToGal (p : Posn D .equ) (t : Rat) : Except Err (Posn D .gal) := (equPrec2 s p t j2000Utc).bind (galFromEqu s)

/-- `gal_posn.to_equ`, lines 1336-1347. -/
def galToEqu (p : Posn D .gal) (t : Rat) : Except Err (Posn D .equ) := (equFromGal s p).bind fun e => equPrec s e t

/-- `get_rect_from_equ`, lines 3395-3412: the direction of the angles. -/
def rectFromEqu (p : Posn D .equ) : D := s.point (.fk5 j2000) p.c

/-- `get_angular_separation`, lines 2260-2281, for an angle between directions: without an object `SkyCoord` is called with an
argument `format` that it does not have. -/
def separation {R : Type} (angle : D → D → R) (p q : Posn D .equ) : Except Err R :=
  match p.astropy, q.astropy with
  | some a, some b => .ok (angle a.dir b.dir)
  | _, _ => .error .valueError

/-! ## transform.py -/

/-- What a position may be given as. -/
inductive Value (D : Type)
  | equ (p : Posn D .equ)
  | gal (p : Posn D .gal)
  | ecl (p : Posn D .ecl)
  | seq (l : List Rat)
  | other

/-- `CelestialPosition.__init__` and the setters, lines 430-593. -/
def celestial (format epoch : String) (v : Value D) : Except Err (Posn D .equ) :=
  if format ∉ ["EQU", "ECL", "GAL"] then .error .valueError
  else if epoch ∉ ["J2000", "B1950"] then .error .valueError
  else if format = "EQU" then
    match v with
    | .equ p => if epoch = "J2000" then p.copy else toJ2000 s p
    | .seq [a, b] => (new .equ (a, b)).bind fun p => if epoch = "J2000" then p.copy else toJ2000 s p
    | _ => .error .typeError
  else if epoch ≠ "J2000" then .error .valueError
  else if format = "GAL" then
    match v with
    | .gal p => equFromGal s p
    | .seq [a, b] => (new .gal (a, b)).bind (equFromGal s)
    | _ => .error .typeError
  else
    match v with
    | .ecl p => equFromEcl s p j2000Utc
    | .seq [a, b] => (new .ecl (a, b)).bind fun p => equFromEcl s p j2000Utc
    | _ => .error .typeError

/-- `PlanetaryPosition`, lines 616-639: the body whose position is taken. -/
def planet (name : String) : Except Err String :=
  match name with
  | "Sun" => .ok "sun"
  | "Moon" => .ok "moon"
  | "Venus" => .ok "venus"
  | "Mars" => .ok "mars"
  | "Jupiter" => .ok "jupiter"
  | "Saturn" => .ok "saturn"
  | _ => .error .valueError

/-- `PlanetaryPosition.apparent_equ` for the directions of the bodies, lines 644-655 with astro.py lines 2598-2810. -/
def planetEqu (body : String → Rat → D) (name : String) (t : Rat) : Except Err (Posn D .equ) :=
  (planet name).bind fun b => fromAstropy s .equ ⟨true, .apparent t, body b t⟩

/-- `PointingDirection.hrz`, lines 817-829, for a fixed position. -/
def pointing (p : Posn D .equ) (o : Site) (t : Rat) : Except Err (Posn D .hrz) :=
  (apparentPosn s p t).bind fun a => hrzFromEqu s a o t

end Verif.Posn

import Verif.Model.Posn
/-!
# C107: conversions of positions keep the direction
-/
namespace Verif.Posn

variable {D : Type} (s : Sky D)

/-- The direction of a position; plain angles are meant in the frame `f`. -/
def denotes {k : Kind} (f : Frame) (p : Posn D k) : D :=
  match p.astropy with
  | some o => o.dir
  | none => s.point f p.c

/-- Angles and object belong together. -/
def Wf {k : Kind} (p : Posn D k) : Prop :=
  match p.astropy with
  | some o => takes k o.wrapped o.frame = true ∧ p.c = s.coords o.frame o.dir
  | none => okLng k p.c.1 = true ∧ okLat p.c.2 = true

/-- A position with no object, or with a `SkyCoord`. -/
def Wrapped {k : Kind} (p : Posn D k) : Prop := ∀ o, p.astropy = some o → o.wrapped = true

theorem sky_dir {k : Kind} (p : Posn D k) (f : Frame) : (p.sky s f).dir = denotes s f p := by
  unfold Posn.sky denotes; cases p.astropy <;> rfl

theorem sky_wrapped {k : Kind} (p : Posn D k) (f : Frame) (h : Wrapped p) : (p.sky s f).wrapped = true := by
  unfold Posn.sky Wrapped at *
  cases hp : p.astropy with
  | none => rfl
  | some o => exact h o hp

/-- The outcome of `from_astropy` that is wanted: position of the direction `d` in the frame `f`. -/
def Gives {k : Kind} (r : Except Err (Posn D k)) (w : Bool) (f : Frame) (d : D) : Prop := r = .ok ⟨s.coords f d, some ⟨w, f, d⟩⟩

theorem gives_from {k : Kind} (o : Obj D) (f : Frame) (w : Bool) (hw : o.wrapped = w) (h : takes k w f = true) :
    Gives s (fromAstropy s k (o.transformTo f)) w f o.dir := by
  unfold Gives fromAstropy Obj.transformTo
  simp only [hw]
  rw [if_pos h]

theorem takes_wrapped (k : Kind) (f : Frame) (h : f.isFor k = true) : takes k true f = true := by
  cases k <;> simpa [takes] using h

theorem gives_wrapped {k k' : Kind} (p : Posn D k) (g f : Frame) (hw : Wrapped p) (h : f.isFor k' = true) :
    Gives s (fromAstropy s k' ((p.sky s g).transformTo f)) true f (denotes s g p) := by
  have := gives_from (k := k') s (p.sky s g) f true (sky_wrapped s p g hw) (takes_wrapped k' f h)
  rwa [sky_dir] at this

/-- Positions made by the constructors and by `from_astropy` are well formed. -/
theorem C107_wf (k : Kind) (c : Rat × Rat) (o : Obj D) (p : Posn D k) (h : new k c = .ok p ∨ fromAstropy s k o = .ok p) : Wf s p := by
  rcases h with h | h
  · unfold new at h
    split at h
    · split at h
      · injection h with h; subst h; exact ⟨‹_›, ‹_›⟩
      · cases h
    · cases h
  · unfold fromAstropy at h
    split at h
    · injection h with h; subst h; exact ⟨‹_›, rfl⟩
    · cases h

/-- Setting an angle keeps angles and object together: it is refused when there is an object or the angle is out of range. -/
theorem C107_set {k : Kind} (p q : Posn D k) (x : Rat) (hp : Wf s p) (h : setLng p x = .ok q ∨ setLat p x = .ok q) :
    Wf s q ∧ p.astropy = none ∧ q.astropy = none := by
  cases ha : p.astropy with
  | some o => simp [setLng, setLat, ha] at h
  | none =>
    unfold Wf at hp
    simp only [ha] at hp
    rcases h with h | h
    · simp only [setLng, ha, Option.isSome_none, Bool.false_eq_true, if_false] at h
      split at h
      · injection h with h; subst h; exact ⟨⟨‹_›, hp.2⟩, rfl, rfl⟩
      · cases h
    · simp only [setLat, ha, Option.isSome_none, Bool.false_eq_true, if_false] at h
      split at h
      · injection h with h; subst h; exact ⟨⟨hp.1, ‹_›⟩, rfl, rfl⟩
      · cases h

/-! ## Conversions keep the direction -/

/-- From equatorial positions that are plain angles (J2000) or have a `SkyCoord`, every conversion gives the same direction in the
frame that is asked for. -/
theorem C107_from_equ_partial (p : Posn D .equ) (hw : Wrapped p) (o : Site) (t : Rat) :
    Gives s (hrzFromEqu s p o t) true (o.horizon t) (denotes s (.fk5 j2000) p)
    ∧ Gives s (eclFromEqu s p t) true (.ecliptic t) (denotes s (.fk5 j2000) p)
    ∧ Gives s (galFromEqu s p) true .galactic (denotes s (.fk5 j2000) p)
    ∧ Gives s (apparentPosn s p t) true (.apparent t) (denotes s (.fk5 j2000) p)
    ∧ Gives s (equPrec s p t) true (.fk5 t) (denotes s (.fk5 j2000) p)
    ∧ Gives s (toB1950 s p) true .fk4 (denotes s (.fk5 j2000) p)
    ∧ Gives s (toJ2000 s p) true (.fk5 j2000) (denotes s .fk4 p) :=
  ⟨gives_wrapped s p _ _ hw rfl, gives_wrapped s p _ _ hw rfl, gives_wrapped s p _ _ hw rfl, gives_wrapped s p _ _ hw rfl,
    gives_wrapped s p _ _ hw rfl, gives_wrapped s p _ _ hw rfl, gives_wrapped s p _ _ hw rfl⟩

/-- Negation of the full claim: positions with a frame object that is no `SkyCoord` cannot be converted to horizontal, ecliptic,
galactic or apparent positions.  `TypeError` is raised. -/
theorem C107_not_plain_frame (p : Posn D .equ) (a : Obj D) (h : p.astropy = some a) (hw : a.wrapped = false) (o : Site) (t : Rat) :
    hrzFromEqu s p o t = .error .typeError ∧ eclFromEqu s p t = .error .typeError ∧ galFromEqu s p = .error .typeError
    ∧ apparentPosn s p t = .error .typeError := by
  simp [hrzFromEqu, eclFromEqu, galFromEqu, apparentPosn, Posn.sky, h, fromAstropy, Obj.transformTo, takes, hw]

theorem wrapped_of_wf {k : Kind} (hk : k ≠ .equ) (p : Posn D k) (h : Wf s p) : Wrapped p := by
  intro o ho
  unfold Wf at h
  simp only [ho] at h
  have := h.1
  cases k with
  | equ => exact absurd rfl hk
  | gal => simp only [takes, Bool.and_eq_true] at this; exact this.1
  | ecl => simp only [takes, Bool.and_eq_true] at this; exact this.1
  | hrz => simp only [takes, Bool.and_eq_true] at this; exact this.1

/-- From galactic positions: always. -/
theorem C107_from_gal (p : Posn D .gal) (h : Wf s p) : Gives s (equFromGal s p) true (.fk5 j2000) (denotes s .galactic p) :=
  gives_wrapped s p _ _ (wrapped_of_wf s (by decide) p h) rfl

/-- From horizontal positions: the direction is right, but what is in the position is a frame object. -/
theorem C107_from_hrz (p : Posn D .hrz) (o : Site) (t : Rat) :
    Gives s (equFromHrz s p o t) false (.fk5 j2000) (s.point (o.horizon t) p.c) :=
  gives_from s ⟨false, o.horizon t, s.point (o.horizon t) p.c⟩ _ false rfl rfl

/-- From ecliptic positions: a frame object if the angles are plain, otherwise what was there. -/
theorem C107_from_ecl (p : Posn D .ecl) (h : Wf s p) (t : Rat) :
    Gives s (equFromEcl s p t) p.astropy.isSome (.fk5 j2000) (denotes s (.ecliptic t) p) := by
  unfold equFromEcl denotes
  cases ha : p.astropy with
  | none => exact gives_from s ⟨false, .ecliptic t, s.point (.ecliptic t) p.c⟩ _ false rfl rfl
  | some o => exact gives_from s o _ true (wrapped_of_wf s (by decide) p h o ha) rfl

/-! ## There and back -/

/-- Galactic angles come back. -/
theorem C107_gal_round (c : Rat × Rat) (hc : Proper c) :
    ((new .gal c).bind (equFromGal s)).bind (galFromEqu s) = .ok ⟨c, some ⟨true, .galactic, s.point .galactic c⟩⟩ := by
  have hn : new (D := D) .gal c = .ok ⟨c, none⟩ := by
    obtain ⟨h1, h2, h3, h4⟩ := hc
    unfold new
    rw [if_pos (by simp only [okLng, decide_eq_true_eq]; constructor <;> grind), if_pos (by simp only [okLat, decide_eq_true_eq]; constructor <;> grind)]
  rw [hn]
  show ((equFromGal s ⟨c, none⟩).bind (galFromEqu s)) = _
  rw [gives_wrapped s (⟨c, none⟩ : Posn D .gal) .galactic (.fk5 j2000) (by intro o h; cases h) rfl |> (fun h : Gives s (equFromGal s ⟨c, none⟩) _ _ _ => h)]
  show galFromEqu s _ = _
  simp [galFromEqu, Posn.sky, Obj.transformTo, fromAstropy, takes, Frame.isFor, denotes, s.coords_point _ c hc]

/-- Equatorial angles come back from galactic, horizontal, ecliptic positions and from B1950. -/
theorem C107_equ_round (c : Rat × Rat) (hc : Proper c) (o : Site) (t : Rat) :
    ∃ w1 w2 w3 w4,
      (galFromEqu s ⟨c, none⟩).bind (equFromGal s) = .ok ⟨c, some ⟨w1, .fk5 j2000, s.point (.fk5 j2000) c⟩⟩
      ∧ (hrzFromEqu s ⟨c, none⟩ o t).bind (equFromHrz s · o t) = .ok ⟨c, some ⟨w2, .fk5 j2000, s.point (.fk5 j2000) c⟩⟩
      ∧ (eclFromEqu s ⟨c, none⟩ t).bind (equFromEcl s · t) = .ok ⟨c, some ⟨w3, .fk5 j2000, s.point (.fk5 j2000) c⟩⟩
      ∧ (toB1950 s ⟨c, none⟩).bind (toJ2000 s) = .ok ⟨c, some ⟨w4, .fk5 j2000, s.point (.fk5 j2000) c⟩⟩ := by
  refine ⟨true, false, true, true, ?_, ?_, ?_, ?_⟩
  all_goals simp [galFromEqu, equFromGal, hrzFromEqu, equFromHrz, eclFromEqu, equFromEcl, toB1950, toJ2000, Posn.sky, Obj.transformTo, fromAstropy,
    takes, Frame.isFor, Site.horizon, Except.bind, s.coords_point _ c hc, s.point_coords]

/-- Negation: horizontal positions do not come back from equatorial ones, nor plain ecliptic ones: `TypeError`, whatever the angles. -/
theorem C107_not_hrz_round (p : Posn D .hrz) (q : Posn D .ecl) (hq : q.astropy = none) (o : Site) (t : Rat) :
    (equFromHrz s p o t).bind (hrzFromEqu s · o t) = .error .typeError
    ∧ (equFromEcl s q t).bind (eclFromEqu s · t) = .error .typeError := by
  constructor
  · simp [equFromHrz, hrzFromEqu, Posn.sky, Obj.transformTo, fromAstropy, takes, Except.bind]
  · simp [equFromEcl, eclFromEqu, hq, Posn.sky, Obj.transformTo, fromAstropy, takes, Except.bind]

/-- `get_ecl_from_rect` always raises. -/
theorem C107_not_rect (d : D) : eclFromRect s d = .error .typeError := by
  simp [eclFromRect, fromAstropy, takes]

/-! ## Dates -/

/-- Precession between two dates: plain angles are those of the first date. -/
theorem C107_prec2 (c : Rat × Rat) (t1 t2 : Rat) :
    Gives s (equPrec2 s ⟨c, none⟩ t1 t2) true (.fk5 t2) (s.point (.fk5 t1) c) ∧ precession s t1 ⟨c, none⟩ t2 = equPrec2 s ⟨c, none⟩ t1 t2 :=
  ⟨gives_wrapped s ⟨c, none⟩ _ _ (by intro o h; cases h) rfl, rfl⟩

/-- Equatorial angles of a date to galactic ones. -/
theorem C107_to_gal (c : Rat × Rat) (t : Rat) : Gives s (equToGal s ⟨c, none⟩ t) true .galactic (s.point (.fk5 t) c) := by
  unfold Gives
  simp [equToGal, equPrec2, galFromEqu, Posn.sky, Obj.transformTo, fromAstropy, takes, Frame.isFor, Except.bind]

/-- Galactic angles to equatorial ones of a date. -/
theorem C107_to_equ (c : Rat × Rat) (t : Rat) : Gives s (galToEqu s ⟨c, none⟩ t) true (.fk5 t) (s.point .galactic c) := by
  unfold Gives
  simp [galToEqu, equFromGal, equPrec, Posn.sky, Obj.transformTo, fromAstropy, takes, Frame.isFor, Except.bind]

/-! ## Copies -/

theorem copy_ok {k : Kind} (p : Posn D k) (h : okLng k p.c.1 = true ∧ okLat p.c.2 = true) : p.copy = .ok ⟨p.c, none⟩ := by
  unfold Posn.copy new
  rw [if_pos h.1, if_pos h.2]

/-- A copy of plain angles, or of a position in J2000, has the same direction. -/
theorem C107_copy_partial (p : Posn D .equ) (hp : Wf s p) (h : okLng .equ p.c.1 = true ∧ okLat p.c.2 = true)
    (hf : ∀ o, p.astropy = some o → o.frame = .fk5 j2000) :
    ∃ q, p.copy = .ok q ∧ denotes s (.fk5 j2000) q = denotes s (.fk5 j2000) p := by
  refine ⟨_, copy_ok p h, ?_⟩
  unfold denotes Wf at *
  cases ha : p.astropy with
  | none => rfl
  | some o =>
    simp only [ha] at hp ⊢
    rw [hp.2, hf o ha, s.point_coords]

/-- Negation: copying and pickling lose the frame, so that the angles of any other frame become angles of J2000. -/
theorem C107_not_copy (p : Posn D .equ) (hp : Wf s p) (h : okLng .equ p.c.1 = true ∧ okLat p.c.2 = true) (o : Obj D) (ho : p.astropy = some o)
    (hd : s.coords (.fk5 j2000) o.dir ≠ s.coords o.frame o.dir) (hc : Proper p.c) :
    ∃ q, p.copy = .ok q ∧ q.c = p.c ∧ denotes s (.fk5 j2000) q ≠ denotes s (.fk5 j2000) p := by
  refine ⟨_, copy_ok p h, rfl, ?_⟩
  unfold denotes Wf at *
  simp only [ho] at hp ⊢
  intro hq
  apply hd
  have := congrArg (s.coords (.fk5 j2000)) hq
  rw [s.coords_point _ _ hc] at this
  rw [← this, hp.2]

/-! ## Separations and rectangular coordinates -/

/-- Separations of positions with objects are those of the directions. -/
theorem C107_separation_partial {R : Type} (angle : D → D → R) (p q : Posn D .equ) (a b : Obj D) (ha : p.astropy = some a) (hb : q.astropy = some b) :
    separation angle p q = .ok (angle (denotes s (.fk5 j2000) p) (denotes s (.fk5 j2000) q)) := by
  simp [separation, denotes, ha, hb]

/-- Negation: with plain angles on either side they raise. -/
theorem C107_not_separation {R : Type} (angle : D → D → R) (p q : Posn D .equ) (h : p.astropy = none ∨ q.astropy = none) :
    separation angle p q = .error .valueError := by
  unfold separation
  rcases h with h | h
  · rw [h]
  · rw [h]; cases p.astropy <;> rfl

/-! ## transform.py -/

/-- Plain angles in each of the formats are the direction in the frame of the format. -/
theorem C107_celestial (a b : Rat) (hc : Proper (a, b)) :
    celestial s "EQU" "J2000" (.seq [a, b]) = .ok ⟨(a, b), none⟩
    ∧ Gives s (celestial s "EQU" "B1950" (.seq [a, b])) true (.fk5 j2000) (s.point .fk4 (a, b))
    ∧ Gives s (celestial s "GAL" "J2000" (.seq [a, b])) true (.fk5 j2000) (s.point .galactic (a, b))
    ∧ Gives s (celestial s "ECL" "J2000" (.seq [a, b])) false (.fk5 j2000) (s.point (.ecliptic j2000Utc) (a, b)) := by
  obtain ⟨h1, h2, h3, h4⟩ := hc
  simp only at h1 h2 h3 h4
  have h5 : (-360 : Rat) ≤ a := by grind
  have h6 : a ≤ (360 : Rat) := by grind
  have h7 : (-90 : Rat) ≤ b := by grind
  have h8 : b ≤ (90 : Rat) := by grind
  have hn : ∀ k, new (D := D) k (a, b) = .ok ⟨(a, b), none⟩ := by
    intro k
    unfold new
    rw [if_pos (by cases k <;> simp [okLng, h1, h2, h5, h6]), if_pos (by simp [okLat, h7, h8])]
  unfold Gives celestial
  simp [hn, Except.bind, Posn.copy, toJ2000, equFromGal, equFromEcl, Posn.sky, Obj.transformTo, fromAstropy, takes, Frame.isFor]

/-- Positions with a `SkyCoord` keep their direction, but for equatorial ones of J2000. -/
theorem C107_celestial_posn_partial (e : Posn D .equ) (he : Wrapped e) (g : Posn D .gal) (hg : Wf s g) (q : Posn D .ecl) (hq : Wf s q) :
    Gives s (celestial s "EQU" "B1950" (.equ e)) true (.fk5 j2000) (denotes s .fk4 e)
    ∧ Gives s (celestial s "GAL" "J2000" (.gal g)) true (.fk5 j2000) (denotes s .galactic g)
    ∧ Gives s (celestial s "ECL" "J2000" (.ecl q)) q.astropy.isSome (.fk5 j2000) (denotes s (.ecliptic j2000Utc) q) := by
  refine ⟨?_, ?_, ?_⟩
  · have := gives_wrapped (k' := .equ) s e .fk4 (.fk5 j2000) he rfl
    simpa [celestial, toJ2000] using this
  · have := C107_from_gal s g hg
    simpa [celestial] using this
  · have := C107_from_ecl s q hq j2000Utc
    simpa [celestial] using this

/-- Negation: an equatorial position of any other frame that is given for J2000 keeps its angles and loses its frame. -/
theorem C107_not_celestial_frame (p : Posn D .equ) (h : okLng .equ p.c.1 = true ∧ okLat p.c.2 = true) :
    celestial s "EQU" "J2000" (.equ p) = .ok ⟨p.c, none⟩ := by
  have := copy_ok p h
  simpa [celestial] using this

/-- Unknown formats and epochs, B1950 for galactic or ecliptic angles, and values that are no position of the format raise. -/
theorem C107_celestial_refused (v : Value D) (format epoch : String) (l : List Rat) (hl : l.length ≠ 2) :
    (format ∉ ["EQU", "ECL", "GAL"] → celestial s format epoch v = .error .valueError)
    ∧ (epoch ∉ ["J2000", "B1950"] → celestial s format epoch v = .error .valueError)
    ∧ celestial s "GAL" "B1950" v = .error .valueError ∧ celestial s "ECL" "B1950" v = .error .valueError
    ∧ (format ∈ ["EQU", "ECL", "GAL"] → celestial s format "J2000" (.seq l) = .error .typeError)
    ∧ (format ∈ ["EQU", "ECL", "GAL"] → celestial s format "J2000" .other = .error .typeError)
    ∧ (∀ p, celestial s "EQU" "J2000" (.gal p) = .error .typeError ∧ celestial s "ECL" "J2000" (.gal p) = .error .typeError)
    ∧ (∀ p, celestial s "EQU" "J2000" (.ecl p) = .error .typeError ∧ celestial s "GAL" "J2000" (.ecl p) = .error .typeError)
    ∧ (∀ p, celestial s "GAL" "J2000" (.equ p) = .error .typeError ∧ celestial s "ECL" "J2000" (.equ p) = .error .typeError) := by
  refine ⟨?_, ?_, ?_, ?_, ?_, ?_, ?_, ?_, ?_⟩
  · intro h; unfold celestial; rw [if_pos h]
  · intro h; unfold celestial; rw [if_pos h]; split <;> rfl
  · simp [celestial]
  · simp [celestial]
  · intro h
    match l, hl with
    | [], _ => simp only [List.mem_cons, List.not_mem_nil, or_false] at h; rcases h with rfl | rfl | rfl <;> simp [celestial]
    | [_], _ => simp only [List.mem_cons, List.not_mem_nil, or_false] at h; rcases h with rfl | rfl | rfl <;> simp [celestial]
    | _ :: _ :: _ :: _, _ => simp only [List.mem_cons, List.not_mem_nil, or_false] at h; rcases h with rfl | rfl | rfl <;> simp [celestial]
  · intro h
    simp only [List.mem_cons, List.not_mem_nil, or_false] at h; rcases h with rfl | rfl | rfl <;> simp [celestial]
  · intro p; constructor <;> simp [celestial]
  · intro p; constructor <;> simp [celestial]
  · intro p; constructor <;> simp [celestial]

/-- A pointing at a position that is plain or has a `SkyCoord` is the direction as seen from the site. -/
theorem C107_pointing_partial (p : Posn D .equ) (hw : Wrapped p) (o : Site) (t : Rat) :
    Gives s (pointing s p o t) true (o.horizon t) (denotes s (.fk5 j2000) p) := by
  unfold pointing
  rw [(C107_from_equ_partial s p hw o t).2.2.2.1]
  exact (C107_from_equ_partial s ⟨_, some ⟨true, .apparent t, denotes s (.fk5 j2000) p⟩⟩ (by intro o h; injection h with h; subst h; rfl) o t).1

/-- Negation: a position given by ecliptic angles can be made but not be used: neither its apparent position nor its ecliptic or
galactic angles nor a pointing can be had. -/
theorem C107_not_ecl (a b : Rat) (hc : Proper (a, b)) (o : Site) (t : Rat) :
    ∃ p, celestial s "ECL" "J2000" (.seq [a, b]) = .ok p ∧ apparentPosn s p t = .error .typeError ∧ eclFromEqu s p t = .error .typeError
      ∧ galFromEqu s p = .error .typeError ∧ pointing s p o t = .error .typeError := by
  refine ⟨_, (C107_celestial s a b hc).2.2.2, ?_⟩
  obtain ⟨-, h2, h3, h4⟩ := C107_not_plain_frame s (⟨_, some ⟨false, .fk5 j2000, s.point (.ecliptic j2000Utc) (a, b)⟩⟩ : Posn D .equ) _ rfl rfl o t
  refine ⟨h4, h2, h3, ?_⟩
  unfold pointing
  rw [h4]
  rfl

/-- Planets: the name is that of the body, and positions are apparent ones. -/
theorem C107_planet (body : String → Rat → D) (t : Rat) (name b : String)
    (h : (name, b) ∈ [("Sun", "sun"), ("Moon", "moon"), ("Venus", "venus"), ("Mars", "mars"), ("Jupiter", "jupiter"), ("Saturn", "saturn")]) :
    Gives s (planetEqu s body name t) true (.apparent t) (body b t) := by
  simp only [List.mem_cons, Prod.mk.injEq, List.not_mem_nil, or_false] at h
  unfold Gives
  rcases h with ⟨rfl, rfl⟩ | ⟨rfl, rfl⟩ | ⟨rfl, rfl⟩ | ⟨rfl, rfl⟩ | ⟨rfl, rfl⟩ | ⟨rfl, rfl⟩ <;>
    simp [planetEqu, planet, Except.bind, fromAstropy, takes, Frame.isFor]

/-! ## Not vacuous -/

/-- A sky in which frames differ by a shift of the first angle. -/
def exSky : Sky (Rat × Rat) where
  coords f d := if f = .fk5 j2000 then d else (d.1 + 1, d.2)
  point f c := if f = .fk5 j2000 then c else (c.1 - 1, c.2)
  point_coords := by
    intro f d
    split <;> simp [*, Rat.add_sub_cancel]
  coords_point := by
    intro f c _
    split <;> simp [*, Rat.sub_add_cancel]

/-- An apparent position that is copied moves by one degree. -/
example : ((apparentPosn exSky ⟨(10, 20), none⟩ 0).bind fun p => p.copy).toOption.map (fun p => (p.c, p.astropy.isNone)) = some ((11, 20), true) := by
  decide +kernel

end Verif.Posn

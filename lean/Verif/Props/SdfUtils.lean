import Verif.Lemmas.SdfUtils
import Verif.Lemmas.Idf
/-!
# C96: times, sizes and widths in session definitions
-/
namespace Verif.SdfUtils

open Dec Idf McsTime Spec

/-! ## The pattern -/

/-- The pattern takes exactly the texts that are written as described, and finds the parts. -/
theorem C96_pattern (s : Text) (q : Found) : match? s = some q ↔ ∃ (f : Form) (m : Marks), f.Ok m ∧ s = f.text m ∧ q = f.found := by
  constructor
  · exact match_some s q
  · rintro ⟨f, m, h, rfl, rfl⟩
    exact match_ok f m h

/-- Separators that nobody meant are taken. -/
theorem C96_not_separator : (match? "2024(01,02 03:04:05".toList).isSome = true := by decide +kernel

/-! ## Numbers -/

theorem ofDigits_lt (l : Text) (init : Nat) (h : ∀ c ∈ l, c.isDigit = true) : Nat.ofDigitChars 10 l init < (init + 1) * 10 ^ l.length := by
  induction l generalizing init with
  | nil => simp
  | cons c l ih =>
    rw [Nat.ofDigitChars_cons]
    have hc := h c (by simp)
    have hd : c.toNat - '0'.toNat ≤ 9 := by
      simp only [Char.isDigit, ge_iff_le, Bool.and_eq_true, decide_eq_true_eq] at hc
      have h2 : c.val ≤ 57 := hc.2
      have h3 : c.val.toNat ≤ 57 := h2
      show c.val.toNat - 48 ≤ 9
      omega
    have := ih (10 * init + (c.toNat - '0'.toNat)) fun x hx => h x (by simp [hx])
    refine Nat.lt_of_lt_of_le this ?_
    rw [List.length_cons, Nat.pow_succ]
    calc (10 * init + (c.toNat - '0'.toNat) + 1) * 10 ^ l.length ≤ ((init + 1) * 10) * 10 ^ l.length :=
          Nat.mul_le_mul_right _ (by omega)
      _ = (init + 1) * (10 ^ l.length * 10) := by rw [Nat.mul_assoc, Nat.mul_comm 10]

theorem parse_digits (lo hi : Nat) (t : Text) (hlo : 0 < lo) (h : Digits lo hi t) : ∃ n, parseNat? t = some n ∧ n < 10 ^ t.length := by
  refine ⟨Nat.ofDigitChars 10 t 0, ?_, ?_⟩
  · have hn : t ≠ [] := by
      intro e
      have := h.1
      rw [e, List.length_nil] at this
      omega
    unfold parseNat?
    rw [if_pos ⟨hn, List.all_eq_true.mpr h.2.2⟩]
  · have := ofDigits_lt t 0 h.2.2
    simpa using this

/-- The number that the digits of a fraction are, in units of their last place. -/
def fracNum (t : Text) : Nat := (parseNat? t).getD 0

theorem fracNum_lt (t : Text) (h : Digits 0 6 t) : fracNum t < 10 ^ t.length := by
  unfold fracNum
  by_cases hn : t = []
  · subst hn; decide
  · obtain ⟨n, h1, h2⟩ := parse_digits 1 6 t (by decide) ⟨List.length_pos_iff.mpr hn, h.2⟩
    rw [h1]; exact h2

/-- Milliseconds are those nearest to the fraction; they may be a thousand. -/
theorem C96_millis (t : Text) (h : Digits 0 6 t) :
    millis t ≤ 1000 ∧ ((fracNum t : Rat) / ((10 ^ t.length : Nat) : Rat) * 1000 - millis t ≤ 1 / 2) ∧
      ((millis t : Rat) - (fracNum t : Rat) / ((10 ^ t.length : Nat) : Rat) * 1000 ≤ 1 / 2) := by
  have hlt := fracNum_lt t h
  have hp : (0 : Rat) < ((10 ^ t.length : Nat) : Rat) := by exact_mod_cast Nat.pow_pos (by decide)
  have h0 : (0 : Rat) ≤ (fracNum t : Rat) / ((10 ^ t.length : Nat) : Rat) * 1000 := by
    have : (0 : Rat) ≤ (fracNum t : Rat) / ((10 ^ t.length : Nat) : Rat) := by
      rw [Rat.div_def]
      exact Rat.mul_nonneg (by exact_mod_cast Nat.zero_le _) (Rat.le_of_lt (Rat.inv_pos.mpr hp))
    grind
  have h1 : (fracNum t : Rat) / ((10 ^ t.length : Nat) : Rat) * 1000 ≤ 1000 := by
    have : (fracNum t : Rat) / ((10 ^ t.length : Nat) : Rat) ≤ 1 := by
      have hle : (fracNum t : Rat) ≤ ((10 ^ t.length : Nat) : Rat) := by exact_mod_cast Nat.le_of_lt hlt
      have := Rat.mul_le_mul_of_nonneg_right hle (Rat.le_of_lt (Rat.inv_pos.mpr hp))
      rwa [Rat.mul_inv_cancel _ (by intro e; rw [e] at hp; exact Rat.lt_irrefl hp), ← Rat.div_def] at this
    grind
  have e : millis t = (roundHalfEven ((fracNum t : Rat) / ((10 ^ t.length : Nat) : Rat) * 1000)).toNat := rfl
  generalize (fracNum t : Rat) / ((10 ^ t.length : Nat) : Rat) * 1000 = x at h0 h1 e ⊢
  have r0 : 0 ≤ roundHalfEven x := by
    have := roundHalfEven_mono h0
    rwa [show roundHalfEven 0 = 0 from round_int 0] at this
  have r1 : roundHalfEven x ≤ 1000 := by
    have := roundHalfEven_mono h1
    rwa [show roundHalfEven 1000 = 1000 from round_int 1000] at this
  have hc : ((roundHalfEven x).toNat : Rat) = (roundHalfEven x : Rat) := by
    have : (((roundHalfEven x).toNat : Int) : Rat) = (roundHalfEven x : Rat) := by rw [Int.toNat_of_nonneg r0]
    exact_mod_cast this
  have := round_half x
  rw [e, hc]
  exact ⟨by omega, this.1, this.2⟩

/-- Months have numbers or names, in whatever case. -/
theorem C96_months (t : Text) (h : Digits 1 2 t ∨ Letters t) (n : Nat) :
    monthOf t = some n ↔ (parseNat? t = some n ∧ Digits 1 2 t) ∨ (Letters t ∧ 1 ≤ n ∧ months[n - 1]? = some (lower t)) := by
  rcases h with h | h
  · obtain ⟨k, hk, -⟩ := parse_digits 1 2 t (by decide) h
    unfold monthOf
    rw [hk]
    constructor
    · intro e; exact .inl ⟨e, h⟩
    · rintro (e | e)
      · exact e.1
      · exfalso
        cases t with
        | nil => simp [Digits] at h
        | cons c t =>
          have h1 := h.2.2 c (by simp)
          have h2 := letter_digit c (e.1.2 c (by simp))
          rw [h1] at h2; cases h2
  · have hk : parseNat? t = none := by
      unfold parseNat?
      rw [if_neg]
      rintro ⟨-, h2⟩
      cases t with
      | nil => simp [Letters] at h
      | cons c t =>
        have h1 := List.all_eq_true.mp h2 c (by simp)
        have h2 := letter_digit c (h.2 c (by simp))
        rw [h1] at h2; cases h2
    unfold monthOf
    rw [hk]
    simp only [reduceCtorEq, false_and, false_or]
    rw [Option.map_eq_some_iff]
    have hnd : months.Nodup := by decide +kernel
    constructor
    · rintro ⟨i, hi, rfl⟩
      rw [List.findIdx?_eq_some_iff_getElem] at hi
      obtain ⟨h1, h2, -⟩ := hi
      refine ⟨h, by omega, ?_⟩
      rw [Nat.add_sub_cancel, List.getElem?_eq_getElem h1]
      simpa using h2
    · rintro ⟨-, h1, h2⟩
      refine ⟨n - 1, ?_, by omega⟩
      rw [List.findIdx?_eq_some_iff_getElem]
      obtain ⟨h3, h4⟩ := List.getElem?_eq_some_iff.mp h2
      refine ⟨h3, by simpa using h4, fun j hj => ?_⟩
      simp only [beq_iff_eq]
      intro e
      have := (List.getElem_inj hnd).mp (e.trans h4.symm)
      omega

/-- The names of the months. -/
theorem C96_names : ["jan", "Feb", "MAR", "apr", "May", "JUN", "jul", "Aug", "SEP", "oct", "Nov", "DEC"].map (fun t => monthOf t.toList) =
    (List.range 12).map fun i => some (i + 1) := by decide +kernel

/-! ## Moments -/

theorem shift_two (neg : Bool) (a b : Text) (h m : Nat) (ha : a.length = 2) (hb : b.length = 2) (h1 : parseNat? a = some h) (h2 : parseNat? b = some m) :
    shiftOf (neg, a ++ b) = if h * 3600 + m * 60 < 86400 then some (if neg then -((h * 3600 + m * 60 : Nat) : Int) else (h * 3600 + m * 60 : Nat)) else none := by
  unfold shiftOf
  simp only
  rw [show (a ++ b).take 2 = a by rw [← ha]; exact List.take_left, show (a ++ b).drop 2 = b by rw [← ha]; exact List.drop_left,
    show b.take 2 = b by rw [← hb]; exact List.take_length, h1, h2]
  simp only
  by_cases hx : h * 3600 + m * 60 < 86400
  · rw [if_pos hx, if_pos (by omega)]
  · rw [if_neg hx, if_neg (by omega)]

/-- Local time with a shift of two digits each: the moment less the shift, whatever zone is named. -/
theorem C96_shift (Z : Zones) (lon : Rat) (eq : Int → Rat) (f : Form) (m : Marks) (hf : f.Ok m) (dt : DateTime) (hd : fields f.found = some dt)
    (hv : Valid dt) (hy : dt.year ≤ 9999) (neg : Bool) (a b : Text) (hs : f.shift = some ⟨neg, a, b⟩) (ha : a.length = 2) (hb : b.length = 2)
    (h mi : Nat) (h1 : parseNat? a = some h) (h2 : parseNat? b = some mi) (hm : h * 3600 + mi * 60 < 86400)
    (hr : inRange (moment dt - (if neg then -((h * 3600 + mi * 60 : Nat) : Int) else (h * 3600 + mi * 60 : Nat)) * 1000000) = true) :
    parseText Z lon eq (f.text m) = some (moment dt - (if neg then -((h * 3600 + mi * 60 : Nat) : Int) else (h * 3600 + mi * 60 : Nat)) * 1000000) := by
  unfold parseText
  rw [match_ok f m hf, Option.bind_some, hd, Option.bind_some]
  have e : f.found.shift = some (neg, a ++ b) := by unfold Form.found; rw [hs]; rfl
  unfold zoneOf
  rw [e]
  simp only
  rw [shift_two neg a b h mi ha hb h1 h2, if_pos hm]
  simp only [Option.map_some, Option.bind_some, localize]
  rw [if_pos ((exists_iff dt).mpr ⟨hv, hy⟩), if_pos hr]

/-- Without a zone, or in UTC, it is the moment. -/
theorem C96_utc (Z : Zones) (lon : Rat) (eq : Int → Rat) (f : Form) (m : Marks) (hf : f.Ok m) (dt : DateTime) (hd : fields f.found = some dt)
    (hs : f.shift = none) (hz : f.zone = none ∨ f.zone = some "UT".toList ∨ f.zone = some "UTC".toList) :
    parseText Z lon eq (f.text m) = if exists? dt then some (moment dt) else none := by
  unfold parseText
  rw [match_ok f m hf, Option.bind_some, hd, Option.bind_some]
  have e : f.found.shift = none := by unfold Form.found; rw [hs]; rfl
  have e2 : f.found.zone = f.zone := rfl
  have key : zoneOf Z f.found.zone f.found.shift dt = some (.at fun _ => 0) := by
    unfold zoneOf
    rw [e, e2]
    rcases hz with hz | hz | hz <;> rw [hz] <;> simp
  rw [key]
  simp only [Option.bind_some, localize]
  by_cases hx : exists? dt = true
  · obtain ⟨hv, hy⟩ := (exists_iff dt).mp hx
    rw [if_pos hx, if_pos hx]
    simp only [Int.zero_mul, Int.sub_zero]
    rw [if_pos (moment_range dt hv hy)]
  · rw [if_neg hx, if_neg hx]

/-- Local time in a zone with a name: the moment less what the zone is ahead. -/
theorem C96_zone (Z : Zones) (lon : Rat) (eq : Int → Rat) (f : Form) (m : Marks) (hf : f.Ok m) (dt : DateTime) (hd : fields f.found = some dt)
    (hs : f.shift = none) (off : DateTime → Int) (z : Text) (hz : f.zone = some z)
    (hoff : ((z = "EST".toList ∨ z = "EDT".toList) ∧ off = Z.est) ∨ ((z = "CST".toList ∨ z = "CDT".toList) ∧ off = Z.cst) ∨
      ((z = "MST".toList ∨ z = "MDT".toList) ∧ off = Z.mst) ∨ ((z = "PST".toList ∨ z = "PDT".toList) ∧ off = Z.pst) ∨
      (z ∉ ["UT", "UTC", "EST", "EDT", "CST", "CDT", "MST", "MDT", "PST", "PDT", "LST"].map String.toList ∧ Z.find z dt = some off)) :
    parseText Z lon eq (f.text m) = localize off dt ∧
      ∀ t, localize off dt = some t → Valid dt ∧ t + off dt * 1000000 = moment dt := by
  constructor
  · unfold parseText
    rw [match_ok f m hf, Option.bind_some, hd, Option.bind_some]
    have e : f.found.shift = none := by unfold Form.found; rw [hs]; rfl
    have e2 : f.found.zone = some z := hz
    have key : zoneOf Z f.found.zone f.found.shift dt = some (.at off) := by
      unfold zoneOf
      rw [e, e2]
      rcases hoff with ⟨h | h, ho⟩ | ⟨h | h, ho⟩ | ⟨h | h, ho⟩ | ⟨h | h, ho⟩ | ⟨h, ho⟩
      · subst h; subst ho; simp
      · subst h; subst ho; simp
      · subst h; subst ho; simp
      · subst h; subst ho; simp
      · subst h; subst ho; simp
      · subst h; subst ho; simp
      · subst h; subst ho; simp
      · subst h; subst ho; simp
      · simp only [List.map_cons, List.map_nil, List.mem_cons, not_or] at h
        simp only
        rw [if_neg (by simp only [not_or]; exact ⟨h.1, h.2.1⟩), if_neg (by simp only [not_or]; exact ⟨h.2.2.1, h.2.2.2.1⟩),
          if_neg (by simp only [not_or]; exact ⟨h.2.2.2.2.1, h.2.2.2.2.2.1⟩), if_neg (by simp only [not_or]; exact ⟨h.2.2.2.2.2.2.1, h.2.2.2.2.2.2.2.1⟩),
          if_neg (by simp only [not_or]; exact ⟨h.2.2.2.2.2.2.2.2.1, h.2.2.2.2.2.2.2.2.2.1⟩), if_neg h.2.2.2.2.2.2.2.2.2.2.1, ho]
        rfl
    rw [key]
    rfl
  · intro t ht
    unfold localize at ht
    split at ht
    · next hx =>
      simp only at ht
      split at ht
      · injection ht with ht
        exact ⟨((exists_iff dt).mp hx).1, by omega⟩
      · cases ht
    · cases ht

/-- A sidereal time. -/
theorem C96_lst_text (Z : Zones) (lon : Rat) (eq : Int → Rat) (f : Form) (m : Marks) (hf : f.Ok m) (dt : DateTime) (hd : fields f.found = some dt)
    (hs : f.shift = none) (hz : f.zone = some "LST".toList) : parseText Z lon eq (f.text m) = sidereal lon eq dt := by
  unfold parseText
  rw [match_ok f m hf, Option.bind_some, hd, Option.bind_some]
  have e : f.found.shift = none := by unfold Form.found; rw [hs]; rfl
  have e2 : f.found.zone = some "LST".toList := hz
  have key : zoneOf Z f.found.zone f.found.shift dt = some .lst := by
    unfold zoneOf
    rw [e, e2]
    simp
  rw [key]
  rfl

/-- The fields of a text are the numbers of its parts. -/
theorem C96_fields (f : Form) (dt : DateTime) (h : fields f.found = some dt) :
    parseNat? f.year = some dt.year ∧ monthOf f.month = some dt.month ∧ parseNat? f.day = some dt.day ∧ parseNat? f.hour = some dt.hour ∧
      parseNat? f.minute = some dt.minute ∧ parseNat? f.second = some dt.second ∧ dt.microsecond = millis f.frac * 1000 := by
  unfold fields at h
  simp only [Option.bind_eq_bind, Option.bind_eq_some_iff] at h
  obtain ⟨mo, h1, y, h2, d, h3, hh, h4, mi, h5, s, h6, h⟩ := h
  injection h with h
  rw [← h]
  exact ⟨h2, h1, h3, h4, h5, h6, rfl⟩

/-- A text with a fraction that rounds to a whole second is refused, at any date. -/
theorem C96_not_rounded (Z : Zones) (lon : Rat) (eq : Int → Rat) (f : Form) (m : Marks) (hf : f.Ok m) (hs : f.shift = none)
    (hz : f.zone = none ∨ f.zone = some "UT".toList ∨ f.zone = some "UTC".toList) (hm : millis f.frac = 1000) :
    parseText Z lon eq (f.text m) = none := by
  cases hd : fields f.found with
  | none =>
    unfold parseText
    rw [match_ok f m hf, Option.bind_some, hd]
    rfl
  | some dt =>
    rw [C96_utc Z lon eq f m hf dt hd hs hz, if_neg]
    intro hx
    have hu := ((exists_iff dt).mp hx).1.us
    unfold fields at hd
    simp only [Option.bind_eq_bind, Option.bind_eq_some_iff] at hd
    obtain ⟨_, -, _, -, _, -, _, -, _, -, _, -, hd⟩ := hd
    injection hd with hd
    have : dt.microsecond = millis f.frac * 1000 := by rw [← hd]; rfl
    omega

example : millis "9995".toList = 1000 ∧ millis "999499".toList = 999 := by decide +kernel

/-! ## The start of an observation -/

theorem showPad_digits (w n : Nat) (hw : 0 < w) (h : n < 10 ^ w) : Digits w w (showPad w n) := by
  have := showPad_length w n hw h
  exact ⟨by omega, by omega, showPad_digit w n⟩

theorem digits_wide {lo hi lo' hi' : Nat} {t : Text} (h : Digits lo hi t) (h1 : lo' ≤ lo) (h2 : hi ≤ hi') : Digits lo' hi' t :=
  ⟨Nat.le_trans h1 h.1, Nat.le_trans h.2.1 h2, h.2.2⟩

/-- The form of the text of a start. -/
def startForm (dt : DateTime) : Form :=
  ⟨some "UTC".toList, showPad 4 dt.year, showPad 2 dt.month, showPad 2 dt.day, showPad 2 dt.hour, showPad 2 dt.minute, showPad 2 dt.second,
    showPad 6 dt.microsecond, none⟩

def startMarks : Marks := ⟨'/', '/', ' ', false, false, false⟩

theorem startForm_ok (dt : DateTime) (hv : Valid dt) (hy : dt.year ≤ 9999) : (startForm dt).Ok startMarks := by
  have hd : dt.day < 10 ^ 2 := by
    have h1 := hv.day.2
    have : monthLen dt.year dt.month ≤ 31 := by
      unfold monthLen
      split <;> (try split) <;> omega
    omega
  have h1 := hv.month
  have h2 := hv.hour
  have h3 := hv.minute
  have h4 := hv.second
  have h5 := hv.us
  have two : ∀ n : Nat, n < 10 ^ 2 → Digits 1 2 (showPad 2 n) := fun n hn => digits_wide (showPad_digits 2 n (by decide) hn) (by decide) (by decide)
  refine ⟨?_, showPad_digits 4 _ (by decide) (by omega), .inl (two _ (by omega)), two _ hd, two _ (by omega), two _ (by omega), two _ (by omega),
    digits_wide (showPad_digits 6 _ (by decide) (by omega)) (by decide) (by decide), (fun _ hs => nomatch hs), (show isSep '/' = true by decide), (show isSep '/' = true by decide), .inl rfl⟩
  intro z hz
  injection hz with hz
  rw [← hz]
  unfold ZoneName
  decide

theorem startForm_text (dt : DateTime) : (startForm dt).text startMarks = startText dt := by
  have hne : showPad 6 dt.microsecond ≠ [] := showPad_ne_nil 6 _
  unfold startForm startMarks Form.text startText
  simp only [zoneText, fracText, if_neg hne, shiftText]
  simp

theorem startForm_fields (dt : DateTime) : fields (startForm dt).found = some { dt with microsecond := millis (showPad 6 dt.microsecond) * 1000 } := by
  unfold fields startForm Form.found
  simp only [monthOf, parseNat_showPad]
  rfl

theorem millis_whole (us : Nat) (h : us < 1000000) (h0 : us % 1000 = 0) : millis (showPad 6 us) * 1000 = us := by
  unfold millis
  rw [parseNat_showPad, showPad_length 6 us (by decide) (by omega)]
  obtain ⟨k, rfl⟩ : ∃ k, us = k * 1000 := ⟨us / 1000, by omega⟩
  have e : (((some (k * 1000)).getD 0 : Nat) : Rat) / ((10 ^ 6 : Nat) : Rat) * 1000 = ((k : Int) : Rat) := by
    have h3 : ((10 ^ 6 : Nat) : Rat) = 1000000 := by decide +kernel
    rw [h3]
    simp only [Option.getD_some]
    push_cast
    grind
  rw [e, round_int]
  simp

/-- The text of a start in whole milliseconds is read as the moment of that date. -/
theorem C96_text (Z : Zones) (lon : Rat) (eq : Int → Rat) (dt : DateTime) (hv : Valid dt) (hy : dt.year ≤ 9999) (hms : dt.microsecond % 1000 = 0) :
    parseText Z lon eq (startText dt) = some ((instantMs dt + 3506716800000) * 1000) := by
  have hm := millis_whole dt.microsecond hv.us hms
  have e : ({ dt with microsecond := millis (showPad 6 dt.microsecond) * 1000 } : DateTime) = dt := by rw [hm]
  rw [← startForm_text, C96_utc Z lon eq (startForm dt) startMarks (startForm_ok dt hv hy) _ (startForm_fields dt) rfl (.inr (.inr rfl)), e,
    if_pos ((exists_iff dt).mpr ⟨hv, hy⟩), moment_ms dt hv, hms]
  simp

theorem mjd_div (dt : DateTime) (hv : Valid dt) : moment dt / 86400000000 = toMjd dt ∧ moment dt % 86400000000 / 1000 = toMpm dt := by
  have a := hv.hour
  have b := hv.minute
  have c := hv.second
  have d := hv.us
  unfold moment toMpm
  omega

/-- An observation that is given its own start as a text keeps it. -/
theorem C96_start (Z : Zones) (lon : Rat) (eq : Int → Rat) (dt : DateTime) (hv : Valid dt) (hy : dt.year ≤ 9999) (hms : dt.microsecond % 1000 = 0) :
    setStart Z lon eq (.text (startText dt)) = some (toMjd dt, toMpm dt) := by
  unfold setStart
  show Option.map _ (parseText Z lon eq (startText dt)) = _
  rw [C96_text Z lon eq dt hv hy hms]
  have := mjd_div dt hv
  rw [moment_ms dt hv, hms] at this
  simp only [Option.map_some, Option.some.injEq, Prod.mk.injEq]
  simpa using this

/-! ## Dates that are not texts -/

/-- A date with a time zone is read to the nearest millisecond. -/
theorem C96_aware (Z : Zones) (lon : Rat) (eq : Int → Rat) (off : DateTime → Int) (hoff : ∀ (a : DateTime) (us : Nat), off { a with microsecond := us } = off a)
    (dt : DateTime) (t : Int) (h : parseTime Z lon eq (.aware dt off) = some t) :
    moment dt - off dt * 1000000 - 500 ≤ t ∧ t ≤ moment dt - off dt * 1000000 + 500 ∧ dt.microsecond < 999501 := by
  unfold parseTime parseDatetime localize at h
  simp only at h
  split at h
  · next hx =>
    split at h
    · injection h with h
      have hu := ((exists_iff _).mp hx).1.us
      simp only at hu
      have hr := round_half ((dt.microsecond : Rat) / 1000)
      have h0 : 0 ≤ roundHalfEven ((dt.microsecond : Rat) / 1000) := by
        have hz : (0 : Rat) ≤ (dt.microsecond : Rat) / 1000 := by
          have : (0 : Rat) ≤ (dt.microsecond : Rat) := by exact_mod_cast Nat.zero_le _
          grind
        have := roundHalfEven_mono hz
        rwa [show roundHalfEven 0 = 0 from round_int 0] at this
      generalize hn : roundHalfEven ((dt.microsecond : Rat) / 1000) = n at hr h0 h hu
      have r1 : (dt.microsecond : Rat) - (n : Rat) * 1000 ≤ 500 := by grind
      have r2 : (n : Rat) * 1000 - (dt.microsecond : Rat) ≤ 500 := by grind
      have i1 : (dt.microsecond : Int) - n * 1000 ≤ 500 := by
        have : (((dt.microsecond : Int) - n * 1000 : Int) : Rat) ≤ ((500 : Int) : Rat) := by
          rw [Rat.intCast_sub, Rat.intCast_mul]
          exact r1
        exact Rat.intCast_le_intCast.mp this
      have i2 : n * 1000 - (dt.microsecond : Int) ≤ 500 := by
        have : ((n * 1000 - (dt.microsecond : Int) : Int) : Rat) ≤ ((500 : Int) : Rat) := by
          rw [Rat.intCast_sub, Rat.intCast_mul]
          exact r2
        exact Rat.intCast_le_intCast.mp this
      have ho : off { dt with microsecond := n.toNat * 1000 } = off dt := hoff dt _
      rw [ho] at h
      have hm : moment { dt with microsecond := n.toNat * 1000 } = moment dt - dt.microsecond + n * 1000 := by
        unfold moment toMjd
        simp only
        omega
      rw [hm] at h
      omega
    · cases h
  · cases h

/-- Half a millisecond before a whole second or later, a date is refused. -/
theorem C96_not_aware (Z : Zones) (lon : Rat) (eq : Int → Rat) (off : DateTime → Int) (dt : DateTime) (h : 999500 ≤ dt.microsecond) :
    parseTime Z lon eq (.aware dt off) = none := by
  unfold parseTime parseDatetime localize
  simp only
  rw [if_neg]
  intro hx
  have hu := ((exists_iff _).mp hx).1.us
  simp only at hu
  have h1 : ((9995 : Rat) / 10) ≤ (dt.microsecond : Rat) / 1000 := by
    have : (999500 : Rat) ≤ (dt.microsecond : Rat) := by exact_mod_cast h
    grind
  have h2 := roundHalfEven_mono h1
  rw [show roundHalfEven ((9995 : Rat) / 10) = 1000 by decide +kernel] at h2
  omega

/-- No time of astropy is taken, although they are announced. -/
theorem C96_not_astropy (Z : Zones) (lon : Rat) (eq : Int → Rat) (dt : DateTime) : parseTime Z lon eq (.astropy dt) = none := rfl

/-- Summer and winter time of a zone are the same. -/
theorem C96_not_summer (Z : Zones) (dt : DateTime) :
    zoneOf Z (some "EST".toList) none dt = zoneOf Z (some "EDT".toList) none dt ∧ zoneOf Z (some "CST".toList) none dt = zoneOf Z (some "CDT".toList) none dt ∧
    zoneOf Z (some "MST".toList) none dt = zoneOf Z (some "MDT".toList) none dt ∧ zoneOf Z (some "PST".toList) none dt = zoneOf Z (some "PDT".toList) none dt := by
  refine ⟨?_, ?_, ?_, ?_⟩ <;> simp [zoneOf]

/-- One and a half hours written with one digit are thirteen, seven hours are too many, and hours without minutes are refused. -/
theorem C96_not_shift :
    (match? "2024/01/02 03:04:05 +1:30".toList).bind (fun f => f.shift.bind shiftOf) = some (13 * 3600) ∧
    (match? "2024/01/02 03:04:05 -7:00".toList).isSome = true ∧ (match? "2024/01/02 03:04:05 -7:00".toList).bind (fun f => f.shift.bind shiftOf) = none ∧
    (match? "2024/01/02 03:04:05-07".toList).isSome = true ∧ (match? "2024/01/02 03:04:05-07".toList).bind (fun f => f.shift.bind shiftOf) = none := by
  decide +kernel

/-- A shift makes sidereal time that of a clock. -/
theorem C96_not_sidereal (Z : Zones) (z : Text) (s : Bool × Text) (dt : DateTime) : zoneOf Z (some z) (some s) dt = zoneOf Z none (some s) dt := rfl

/-! ## Sidereal times -/

theorem turn_bounds : 23 < turn ∧ turn < 24 := by unfold turn; constructor <;> decide +kernel

theorem raise_spec (n : Nat) (h : Rat) (hn : -(n : Rat) ≤ h) :
    0 ≤ raise n h ∧ (∃ k : Nat, raise n h = h + k * turn) ∧ (raise n h = h ∨ raise n h < turn) := by
  have ht := turn_bounds
  induction n generalizing h with
  | zero =>
    have : ((0 : Nat) : Rat) = 0 := rfl
    refine ⟨?_, ⟨0, ?_⟩, .inl rfl⟩
    · show 0 ≤ h
      grind
    · show h = h + ((0 : Nat) : Rat) * turn
      grind
  | succ n ih =>
    have hc : ((n + 1 : Nat) : Rat) = (n : Rat) + 1 := by push_cast; rfl
    simp only [raise]
    split
    · next hneg =>
      obtain ⟨h1, ⟨k, hk⟩, h3⟩ := ih (h + turn) (by grind)
      have hc2 : ((k + 1 : Nat) : Rat) = (k : Rat) + 1 := by push_cast; rfl
      refine ⟨h1, ⟨k + 1, by grind⟩, .inr ?_⟩
      rcases h3 with h3 | h3
      · grind
      · exact h3
    · next hp =>
      have : ((0 : Nat) : Rat) = 0 := rfl
      exact ⟨by grind, ⟨0, by grind⟩, .inl rfl⟩

theorem sink_spec (n : Nat) (h : Rat) (h0 : 0 ≤ h) (hn : h ≤ 24 + (n : Rat)) :
    0 ≤ sink n h ∧ sink n h ≤ 24 ∧ ∃ k : Nat, sink n h = h - k * turn := by
  have ht := turn_bounds
  induction n generalizing h with
  | zero =>
    have : ((0 : Nat) : Rat) = 0 := rfl
    simp only [sink]
    exact ⟨h0, by grind, ⟨0, by grind⟩⟩
  | succ n ih =>
    have hc : ((n + 1 : Nat) : Rat) = (n : Rat) + 1 := by push_cast; rfl
    simp only [sink]
    split
    · next hneg =>
      obtain ⟨h1, h2, ⟨k, hk⟩⟩ := ih (h - turn) (by grind) (by grind)
      have hc2 : ((k + 1 : Nat) : Rat) = (k : Rat) + 1 := by push_cast; rfl
      exact ⟨h1, h2, ⟨k + 1, by grind⟩⟩
    · next hp =>
      have : ((0 : Nat) : Rat) = 0 := rfl
      exact ⟨h0, by grind, ⟨0, by grind⟩⟩

/-- The loops end: after them the hours are those of a day, and the sidereal time at them is the one asked for, up to whole days. -/
theorem C96_hours (day : Int) (lon eq lst : Rat) :
    0 ≤ utHours day lon eq lst ∧ utHours day lon eq lst ≤ 24 ∧ ∃ k : Int, siderealAt day lon eq (utHours day lon eq lst) = lst + 24 * (k : Rat) := by
  have ht := turn_bounds
  unfold utHours siderealAt
  simp only
  generalize hd : (day : Rat) + 4800001 / 2 - 2451545 = d0
  generalize hq : (d0 / 36525) ^ 2 = q
  generalize hh : (lst - lon - eq - 6697374558 / 1000000000 - 6570982441908 / 100000000000000 * d0 - 26 / 1000000 * q) /
    (1002737909350795 / 1000000000000000) = h0
  have hmul : h0 * (1002737909350795 / 1000000000000000) =
      lst - lon - eq - 6697374558 / 1000000000 - 6570982441908 / 100000000000000 * d0 - 26 / 1000000 * q := by
    rw [← hh, Rat.div_mul_cancel (by decide +kernel)]
  have hturn : turn * (1002737909350795 / 1000000000000000) = 24 := by unfold turn; decide +kernel
  have hf := floor_bounds h0
  have hc : ((h0.floor.natAbs + 2 : Nat) : Rat) = (h0.floor.natAbs : Rat) + 2 := by push_cast; rfl
  have n1 : -(h0.floor.natAbs : Rat) ≤ (h0.floor : Rat) := by
    have : -(h0.floor.natAbs : Int) ≤ h0.floor := by omega
    have := Rat.intCast_le_intCast.mpr this
    rwa [Rat.intCast_neg] at this
  have n2 : (h0.floor : Rat) ≤ (h0.floor.natAbs : Rat) := by
    have : h0.floor ≤ (h0.floor.natAbs : Int) := by omega
    exact Rat.intCast_le_intCast.mpr this
  have n3 : (0 : Rat) ≤ (h0.floor.natAbs : Rat) := by exact_mod_cast Nat.zero_le _
  generalize hm : h0.floor.natAbs + 2 = n at hc ⊢
  obtain ⟨r1, ⟨k, rk⟩, r3⟩ := raise_spec n h0 (by grind)
  obtain ⟨s1, s2, ⟨j, sj⟩⟩ := sink_spec n (raise n h0) r1 (by rcases r3 with r3 | r3 <;> grind)
  refine ⟨s1, s2, (k : Int) - (j : Int), ?_⟩
  have e : (((k : Int) - (j : Int) : Int) : Rat) = (k : Rat) - (j : Rat) := by rw [Rat.intCast_sub]; rfl
  rw [e, sj, rk]
  grind

/-- What is found for a sidereal time: to half a millisecond (and half a microsecond) a moment of the day asked for with that sidereal time. -/
theorem C96_lst_partial (lon : Rat) (eq : Int → Rat) (dt : DateTime) (t : Int) (h : sidereal lon eq dt = some t) :
    ∃ (H : Rat) (k : Int), 0 ≤ H ∧ H ≤ 24 ∧
      siderealAt (toMjd dt) lon (eq (toMjd dt)) H =
        (dt.hour : Rat) + (dt.minute : Rat) / 60 + ((dt.second : Rat) + (dt.microsecond : Rat) / 1000000) / 3600 + 24 * (k : Rat) ∧
      (t : Rat) - ((toMjd dt : Rat) * 86400000000 + H * 3600000000) ≤ 1001 / 2 ∧
      ((toMjd dt : Rat) * 86400000000 + H * 3600000000) - (t : Rat) ≤ 1001 / 2 ∧
      toMjd dt * 86400000000 ≤ t ∧ t ≤ (toMjd dt + 1) * 86400000000 ∧ t % 1000 = 0 := by
  unfold sidereal at h
  split at h
  · simp only at h
    split at h
    · next hms =>
      injection h with h
      obtain ⟨h1, h2, k, h3⟩ := C96_hours (toMjd dt) lon (eq (toMjd dt))
        ((dt.hour : Rat) + (dt.minute : Rat) / 60 + ((dt.second : Rat) + (dt.microsecond : Rat) / 1000000) / 3600)
      refine ⟨_, k, h1, h2, h3, ?_⟩
      generalize utHours (toMjd dt) lon (eq (toMjd dt))
        ((dt.hour : Rat) + (dt.minute : Rat) / 60 + ((dt.second : Rat) + (dt.microsecond : Rat) / 1000000) / 3600) = H at h h1 h2 hms ⊢
      have hr := round_half (H * 3600000000)
      have r0 : 0 ≤ roundHalfEven (H * 3600000000) := by
        have hz : (0 : Rat) ≤ H * 3600000000 := by grind
        have := roundHalfEven_mono hz
        rwa [show roundHalfEven 0 = 0 from round_int 0] at this
      have r1 : roundHalfEven (H * 3600000000) ≤ 86400000000 := by
        have hz : H * 3600000000 ≤ ((86400000000 : Int) : Rat) := by
          show H * 3600000000 ≤ (86400000000 : Rat)
          grind
        have := roundHalfEven_mono hz
        rwa [round_int] at this
      generalize roundHalfEven (H * 3600000000) = r at h hr r0 r1 hms
      generalize hx : toMjd dt * 86400000000 + r = x at h hms
      have hr2 := round_half (((x % 1000000 : Int) : Rat) / 1000)
      generalize hmn : roundHalfEven (((x % 1000000 : Int) : Rat) / 1000) = m at h hr2 hms
      have c1 : (((x % 1000000) - m * 1000 : Int) : Rat) ≤ ((500 : Int) : Rat) := by
        rw [Rat.intCast_sub, Rat.intCast_mul]
        show ((x % 1000000 : Int) : Rat) - (m : Rat) * 1000 ≤ 500
        grind
      have c2 : ((m * 1000 - (x % 1000000) : Int) : Rat) ≤ ((500 : Int) : Rat) := by
        rw [Rat.intCast_sub, Rat.intCast_mul]
        show (m : Rat) * 1000 - ((x % 1000000 : Int) : Rat) ≤ 500
        grind
      have i1 := Rat.intCast_le_intCast.mp c1
      have i2 := Rat.intCast_le_intCast.mp c2
      have m0 : 0 ≤ m := by
        have hz : (0 : Rat) ≤ ((x % 1000000 : Int) : Rat) / 1000 := by
          have : (0 : Rat) ≤ ((x % 1000000 : Int) : Rat) := by
            have : (0 : Int) ≤ x % 1000000 := by omega
            exact Rat.intCast_le_intCast.mpr this
          grind
        have := roundHalfEven_mono hz
        rwa [show roundHalfEven 0 = 0 from round_int 0, hmn] at this
      have e1 : t - x ≤ 500 := by omega
      have e2 : x - t ≤ 500 := by omega
      have q1 : (t : Rat) - (x : Rat) ≤ 500 := by
        have := Rat.intCast_le_intCast.mpr e1
        rwa [Rat.intCast_sub] at this
      have q2 : (x : Rat) - (t : Rat) ≤ 500 := by
        have := Rat.intCast_le_intCast.mpr e2
        rwa [Rat.intCast_sub] at this
      have q3 : (x : Rat) = (toMjd dt : Rat) * 86400000000 + (r : Rat) := by
        rw [← hx, Rat.intCast_add, Rat.intCast_mul]; rfl
      refine ⟨by grind, by grind, ?_, ?_, ?_⟩
      · omega
      · omega
      · omega
    · cases h
  · cases h

/-- A sidereal time that is none is accepted. -/
theorem C96_not_hour : ∃ Z : Zones, (parseText Z (-7) (fun _ => 0) "LST 2024/01/02 99:99:99".toList).isSome = true ∧
    parseText Z (-7) (fun _ => 0) "UTC 2024/01/02 24:00:00".toList = none :=
  ⟨⟨fun _ => -18000, fun _ => -21600, fun _ => -25200, fun _ => -28800, fun _ _ => none⟩, by decide +kernel⟩

/-- A sidereal time just before a whole second of UT is refused. -/
theorem C96_not_lst : sidereal (-7) (fun _ => 0) ⟨2024, 1, 2, 0, 7, 50, 0⟩ = none ∧
    (sidereal (-7) (fun _ => 0) ⟨2024, 1, 2, 0, 7, 51, 0⟩).isSome = true := by decide +kernel

/-! ## Sizes and widths -/

def sizeUnit : Nat → Text
  | 0 => " B".toList
  | 1 => " kB".toList
  | 2 => " MB".toList
  | 3 => " GB".toList
  | _ => " TB".toList

/-- Sizes are in the greatest unit that they fill. -/
theorem C96_size (size : Rat) :
    ∃ k : Nat, k ≤ 4 ∧ sizeText size = fixed 2 false (size / 1024 ^ k) ++ sizeUnit k ∧ (k = 0 ∨ 1024 ^ k ≤ size) ∧ (k = 4 ∨ size < 1024 ^ (k + 1)) := by
  unfold sizeText
  split
  · next h => exact ⟨4, by decide, rfl, .inr h, .inl rfl⟩
  · next h4 =>
    split
    · next h => exact ⟨3, by decide, rfl, .inr h, .inr (by grind)⟩
    · next h3 =>
      split
      · next h => exact ⟨2, by decide, rfl, .inr h, .inr (by grind)⟩
      · next h2 =>
        split
        · next h => exact ⟨1, by decide, rfl, .inr h, .inr (by grind)⟩
        · next h1 =>
          refine ⟨0, by decide, ?_, .inl rfl, .inr (by grind)⟩
          rw [show size / 1024 ^ 0 = size by grind]
          rfl

/-- The number of the text is right to half its last digit. -/
theorem C96_digits (k : Nat) (hk : 0 < k) (x : Rat) :
    ∃ y, float? (fixed k false x) = some y ∧ y - x ≤ 1 / (2 * ((10 ^ k : Nat) : Rat)) ∧ x - y ≤ 1 / (2 * ((10 ^ k : Nat) : Rat)) := by
  refine ⟨toFixed k x, float_fixed k hk false x, ?_⟩
  have hp : (0 : Rat) < ((10 ^ k : Nat) : Rat) := by exact_mod_cast Nat.pow_pos (by decide)
  unfold toFixed
  generalize ((10 ^ k : Nat) : Rat) = p at hp ⊢
  have hr := round_half (x * p)
  have hi : p * p⁻¹ = 1 := Rat.mul_inv_cancel _ (by intro e; rw [e] at hp; exact Rat.lt_irrefl hp)
  have hpi : 0 < p⁻¹ := Rat.inv_pos.mpr hp
  have e2 : 1 / (2 * p) = 1 / 2 * p⁻¹ := by grind
  rw [e2, Rat.div_def]
  constructor
  · have := Rat.mul_le_mul_of_nonneg_right hr.2 (Rat.le_of_lt hpi)
    rwa [Rat.sub_eq_add_neg, Rat.add_mul, Rat.neg_mul, Rat.mul_assoc, hi, Rat.mul_one, ← Rat.sub_eq_add_neg] at this
  · have := Rat.mul_le_mul_of_nonneg_right hr.1 (Rat.le_of_lt hpi)
    rwa [Rat.sub_eq_add_neg, Rat.add_mul, Rat.neg_mul, Rat.mul_assoc, hi, Rat.mul_one, ← Rat.sub_eq_add_neg] at this

/-- A size of almost a megabyte is 1024 kilobytes. -/
theorem C96_not_size : sizeText 1048575 = "1024.00 kB".toList := by decide +kernel

def widthUnit : Nat → Text
  | 0 => " Hz".toList
  | 1 => " kHz".toList
  | _ => " MHz".toList

/-- Widths are in the greatest unit that they exceed. -/
theorem C96_width (codes : Int → Option Rat) (filter : Int) (bw : Rat) (h : codes filter = some bw) :
    ∃ k : Nat, k ≤ 2 ∧ widthText codes filter = some (fixed 3 false (bw / 1000 ^ k) ++ widthUnit k) ∧ (k = 0 ∨ 1000 ^ k < bw) ∧
      (k = 2 ∨ bw ≤ 1000 ^ (k + 1)) := by
  unfold widthText
  rw [h]
  simp only [Option.map_some]
  split
  · next h => exact ⟨2, by decide, by rw [show (1000 : Rat) ^ 2 = 1000000 by decide +kernel]; rfl, .inr (by grind), .inl rfl⟩
  · next h2 =>
    split
    · next h => exact ⟨1, by decide, by rw [show (1000 : Rat) ^ 1 = 1000 by decide +kernel]; rfl, .inr (by grind), .inr (by grind)⟩
    · next h1 => exact ⟨0, by decide, by rw [show bw / 1000 ^ 0 = bw by grind]; rfl, .inl rfl, .inr (by grind)⟩

/-- One megahertz (filter 3) is a thousand kilohertz. -/
theorem C96_not_width (codes : Int → Option Rat) (h : codes 3 = some 1000000) : widthText codes 3 = some "1000.000 kHz".toList := by
  unfold widthText
  rw [h]
  decide +kernel

example : parseText ⟨fun _ => -18000, fun _ => -21600, fun _ => -25200, fun _ => -28800, fun _ _ => none⟩ (-7) (fun _ => 0) "MST 2024 Jan 02 03:04:05.250".toList =
    parseText ⟨fun _ => 0, fun _ => 0, fun _ => 0, fun _ => 0, fun _ _ => none⟩ (-7) (fun _ => 0) "2024-01-02T10:04:05.25+00:00".toList := by decide +kernel

end Verif.SdfUtils

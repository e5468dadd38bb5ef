import Verif.Model.TimeObj
import Verif.Lemmas.PyNum
import Verif.Lemmas.Float64
import Verif.Lemmas.Float64Mono
/-!
# C108: times in all formats are the same moment
-/
namespace Verif.TimeObj

variable (c : Clock)

/-! ## Formats that are numbers -/

/-- Numbers come back in the format and the system they were given in, whole or not. -/
theorem C108_round (v : Value) (x : Rat) (hv : number v = some x) :
    (∃ t, init "JD" "UTC" v = .ok t ∧ utcJd c t = x ∧ utcMjd c t = x - 4800001 / 2)
    ∧ (∃ t, init "MJD" "UTC" v = .ok t ∧ utcMjd c t = x)
    ∧ (∃ t, init "TIMET" "UTC" v = .ok t ∧ utcTimet c t = x)
    ∧ (∃ t, init "JD" "TAI" v = .ok t ∧ taiJd c t = x)
    ∧ (∃ t, init "MJD" "TAI" v = .ok t ∧ taiMjd c t = x ∧ utcMjd c t = c.utc x)
    ∧ (∃ t, init "TIMET" "TAI" v = .ok t ∧ taiTimet c t = x) := by
  refine ⟨⟨.utc (ofJd x), ?_, ?_, ?_⟩, ⟨.utc x, ?_, rfl⟩, ⟨.utc (ofUnix x), ?_, ?_⟩, ⟨.tai (ofJd x), ?_, ?_⟩, ⟨.tai x, ?_, rfl, rfl⟩,
    ⟨.tai (ofUnix x), ?_, ?_⟩⟩
  · simp [init, formats, systems, setNumber, hv]
  · simp only [utcJd, Stored.toUtc, ofJd]; grind
  · rfl
  · simp [init, formats, systems, setNumber, hv]
  · simp [init, formats, systems, setNumber, hv]
  · simp only [utcTimet, Stored.toUtc, ofUnix]; grind
  · simp [init, formats, systems, setNumber, hv]
  · simp only [taiJd, Stored.toTai, ofJd]; grind
  · simp [init, formats, systems, setNumber, hv]
  · simp [init, formats, systems, setNumber, hv]
  · simp only [taiTimet, Stored.toTai, ofUnix]; grind

/-- Any time read in one system is the same moment in the other one. -/
theorem C108_systems (t : Stored) : c.tai (utcMjd c t) = taiMjd c t ∧ c.utc (taiMjd c t) = utcMjd c t := by
  cases t with
  | utc m => exact ⟨rfl, c.utc_tai m⟩
  | tai m => exact ⟨c.tai_utc m, rfl⟩

/-- Dates, texts and times of astropy are the moment they mean. -/
theorem C108_dates (m : Rat) (t : Stored) (sys : String) (hs : sys ∈ systems) :
    init "PY_DATE" "UTC" (.date m) = .ok (.utc m) ∧ init "STR" "UTC" (.text (some m)) = .ok (.utc m)
    ∧ init "STR" "UTC" (.text none) = .error .valueError ∧ init "ASTROPY" sys (.astropy t) = .ok t := by
  refine ⟨by simp [init, formats, systems, setDate], by simp [init, formats, systems, setStr], by simp [init, formats, systems, setStr], ?_⟩
  simp only [systems, List.mem_cons, List.not_mem_nil, or_false] at hs
  rcases hs with rfl | rfl <;> simp [init, formats, systems, setAstropy]

/-! ## Days and milliseconds -/

/-- A moment less than half a millisecond from a day and milliseconds, and in that day, is read as these. -/
theorem C108_mcs_near (t : Stored) (mjd mpm : Int) (h0 : 0 ≤ mjd) (h1 : (mjd : Rat) ≤ utcMjd c t) (h2 : utcMjd c t < mjd + 1)
    (h3 : utcMjd c t - mcsMjd mjd mpm < 1 / 172800000) (h4 : mcsMjd mjd mpm - utcMjd c t < 1 / 172800000) : utcMcs c t = (mjd, mpm) := by
  have hi : pyInt (utcMjd c t) = mjd := pyInt_eq_of_near h0 h1 h2
  unfold utcMcs
  simp only [hi, Prod.mk.injEq, true_and]
  unfold mcsMjd at h3 h4
  apply round_near <;> grind

/-- Days and milliseconds come back. -/
theorem C108_mcs (a b : Value) (mjd mpm : Int) (ha : number a = some (mjd : Rat)) (hb : number b = some (mpm : Rat)) (h0 : 0 ≤ mjd) (h1 : 0 ≤ mpm)
    (h2 : mpm < 86400000) : ∃ t, init "MCS" "UTC" (.seq [a, b]) = .ok t ∧ utcMjd c t = mcsMjd mjd mpm ∧ utcMcs c t = (mjd, mpm) := by
  have h1' : (0 : Rat) ≤ (mpm : Rat) := by exact_mod_cast h1
  have h2' : (mpm : Rat) < (86400000 : Rat) := by
    have e : ((86400000 : Int) : Rat) = 86400000 := rfl
    rw [← e]; exact Rat.intCast_lt_intCast.mpr h2
  have hm : utcMjd c (.utc ((mjd : Rat) + mpm / 86400 / 1000)) = mcsMjd mjd mpm := by
    simp only [utcMjd, Stored.toUtc, mcsMjd]; grind
  refine ⟨.utc ((mjd : Rat) + mpm / 86400 / 1000), ?_, hm, ?_⟩
  · simp [init, formats, systems, setMcs, ha, hb]
  · apply C108_mcs_near c _ mjd mpm h0
    · rw [hm]; unfold mcsMjd; grind
    · rw [hm]; unfold mcsMjd; grind
    · rw [hm]; grind
    · rw [hm]; grind

/-- Negation: in the last half millisecond of a day the time is read as 86400000 milliseconds of that day, which no day has. -/
theorem C108_not_mcs_range (t : Stored) (mjd : Int) (h0 : 0 ≤ mjd) (h1 : (mjd : Rat) + 1 - 1 / 172800000 < utcMjd c t) (h2 : utcMjd c t < mjd + 1) :
    utcMcs c t = (mjd, 86400000) := by
  apply C108_mcs_near c t mjd 86400000 h0
  · grind
  · exact h2
  · unfold mcsMjd; grind
  · unfold mcsMjd; grind

/-! ## Ticks -/

/-- Whole seconds are numbers of the machine. -/
theorem ticks_second (k : Nat) (hk : k ≤ 11764505149) : ticks ((k : Int) * 196000000) = (k : Int) * 196000000 := by
  have h := fl64_exact (k * 765625) 8 (by omega)
  have e : ((k * 765625 : Nat) : Rat) * pow2 8 = (((k : Int) * 196000000 : Int) : Rat) := by
    rw [show pow2 8 = ((256 : Int) : Rat) by decide +kernel]
    push_cast
    grind
  unfold ticks
  rw [← e, h, e, pyInt_int]

/-- Ticks that are whole seconds come back until the year 2342, and are that moment. -/
theorem C108_dp_partial (k : Nat) (hk : k ≤ 11764505149) :
    ∃ t, init "DP" "UTC" (.int ((k : Int) * 196000000)) = .ok t ∧ utcMjd c t = tickMjd ((k : Int) * 196000000) ∧ utcDp c t = (k : Int) * 196000000 := by
  have hd : (k : Int) * 196000000 / 196000000 = k := by omega
  have hm : (k : Int) * 196000000 % 196000000 = 0 := by omega
  refine ⟨.utc (ofUnix (((k : Int) : Rat) + ((0 : Int) : Rat))), ?_, ?_, ?_⟩
  · simp [init, formats, systems, setDp, ticks_second k hk, hd, hm]
  · simp only [utcMjd, Stored.toUtc, ofUnix, tickMjd]
    push_cast
    grind
  · have : utcTimet c (.utc (ofUnix (((k : Int) : Rat) + ((0 : Int) : Rat)))) * 196000000 = (((k : Int) * 196000000 : Int) : Rat) := by
      simp only [utcTimet, Stored.toUtc, ofUnix]
      push_cast
      grind
    unfold utcDp
    rw [this, pyInt_int]

/-- Negation: all other ticks are taken for seconds.  The moment is too late by as many seconds as there are ticks beyond a whole
second, less what they are. -/
theorem C108_not_dp (n : Int) : ∃ t, init "DP" "UTC" (.int n) = .ok t
    ∧ (utcMjd c t - tickMjd (ticks n)) * 86400 = ((ticks n % 196000000 : Int) : Rat) * (1 - 1 / 196000000) := by
  refine ⟨_, by simp [init, formats, systems, setDp]; rfl, ?_⟩
  simp only [utcMjd, Stored.toUtc, ofUnix, tickMjd]
  generalize ticks n = n
  have h : (n : Rat) = ((n / 196000000 : Int) : Rat) * 196000000 + ((n % 196000000 : Int) : Rat) := by
    have h' : ((n / 196000000 * 196000000 + n % 196000000 : Int) : Rat) = (n : Rat) := by congr 1; omega
    push_cast at h'
    grind
  grind

/-- So a number of ticks that is one of the machine's numbers is taken for its moment only if it is a whole number of seconds. -/
theorem C108_dp_iff (n : Int) (t : Stored) (hn : ticks n = n) (h : init "DP" "UTC" (.int n) = .ok t) :
    utcMjd c t = tickMjd n ↔ n % 196000000 = 0 := by
  obtain ⟨t', h1, h2⟩ := C108_not_dp c n
  rw [h1] at h
  injection h with h
  subst h
  rw [hn] at h2
  constructor
  · intro he
    rw [he] at h2
    have : ((n % 196000000 : Int) : Rat) = 0 := by grind
    exact Rat.intCast_eq_zero_iff.mp this
  · intro he
    rw [he] at h2
    push_cast at h2
    grind

/-- Negation: numbers of ticks near each other are not kept apart. -/
theorem C108_not_dp_apart : init "DP" "UTC" (.int (1357608226 * 196000000 + 1)) = init "DP" "UTC" (.int (1357608226 * 196000000)) := by
  have h : ticks (1357608226 * 196000000 + 1) = ticks (1357608226 * 196000000) := by decide +kernel
  simp only [init, setDp, h]

/-- Numbers are numbers of Python, whole or not; nothing else is. -/
theorem C108_number (n : Int) (x m : Rat) (l : List Value) (o : Option Rat) (t : Stored) :
    number (.int n) = some (n : Rat) ∧ number (.float x) = some x ∧ number (.seq l) = none ∧ number (.date m) = none
    ∧ number (.text o) = none ∧ number (.astropy t) = none ∧ number .other = none := ⟨rfl, rfl, rfl, rfl, rfl, rfl, rfl⟩

theorem pow2_ge (e : Int) (he : 5 ≤ e) : ∃ k : Int, pow2 e = (32 * k : Int) := by
  refine ⟨((2 ^ (e.toNat - 5) : Nat) : Int), ?_⟩
  unfold pow2
  rw [if_pos (by omega)]
  have : (2 : Nat) ^ e.toNat = 32 * 2 ^ (e.toNat - 5) := by
    rw [show (32 : Nat) = 2 ^ 5 by rfl, ← Nat.pow_add]
    congr 1; omega
  rw [this]
  push_cast
  rfl

/-- Negation: since 1993 (2^57 ticks) the number that is read is always a multiple of 32, whatever the time: ticks of the machine's
numbers are too coarse. -/
theorem C108_not_dp_grain (t : Stored) (h : (144115188075855872 : Rat) ≤ fl64 (utcTimet c t) * 196000000) : utcDpFloat c t % 32 = 0 := by
  unfold utcDpFloat
  generalize fl64 (utcTimet c t) * 196000000 = y at *
  have hy : (0 : Rat) < y := by grind
  have he : 57 ≤ expo y := by
    have h57 : expo (144115188075855872 : Rat) = 57 := by decide +kernel
    rw [← h57]
    exact expo_mono (by grind) h
  obtain ⟨k, hk⟩ := pow2_ge (expo y - 52) (by omega)
  have hf : fl64 y = ((roundHalfEven (y / pow2 (expo y - 52)) * (32 * k) : Int) : Rat) := by
    unfold fl64
    rw [if_neg (by grind), Rat.intCast_mul, ← hk]
  rw [hf, pyInt_int, show roundHalfEven (y / pow2 (expo y - 52)) * (32 * k) = 32 * (roundHalfEven (y / pow2 (expo y - 52)) * k) by
    rw [← Int.mul_assoc, ← Int.mul_assoc, Int.mul_comm _ 32]]
  omega

/-! ## Order -/

theorem moment_lt (x y : Rat) : c.tai x < c.tai y ↔ x < y := by
  constructor
  · intro h
    by_cases h1 : x < y
    · exact h1
    · by_cases h2 : x = y
      · rw [h2] at h; grind
      · have := c.mono y x (by grind); grind
  · exact c.mono x y

/-- Times compare as moments, whatever their systems: equal, before or after, exactly one of these. -/
theorem C108_order (a b : Stored) :
    (eq c a b = true ↔ utcMjd c a = utcMjd c b) ∧ (lt c a b = true ↔ utcMjd c a < utcMjd c b)
    ∧ (eq c a b = true ∨ lt c a b = true ∨ lt c b a = true) ∧ ¬ (lt c a b = true ∧ lt c b a = true) := by
  have ha := (C108_systems c a).1
  have hb := (C108_systems c b).1
  unfold taiMjd at ha hb
  have hlt := moment_lt c (utcMjd c a) (utcMjd c b)
  have hgt := moment_lt c (utcMjd c b) (utcMjd c a)
  rw [ha, hb] at hlt hgt
  unfold eq lt cmp
  by_cases h1 : a.toTai c < b.toTai c
  · have h2 : ¬ b.toTai c < a.toTai c := by grind
    have h3 := hlt.mp h1
    simp only [if_pos h1, if_neg h2]
    refine ⟨?_, ?_, ?_, ?_⟩ <;> simp <;> grind
  · by_cases h2 : b.toTai c < a.toTai c
    · have h3 := hgt.mp h2
      simp only [if_neg h1, if_pos h2]
      refine ⟨?_, ?_, ?_, ?_⟩ <;> simp <;> grind
    · simp only [if_neg h1, if_neg h2]
      rw [hlt] at h1
      rw [hgt] at h2
      refine ⟨?_, ?_, ?_, ?_⟩ <;> simp <;> grind

/-! ## What is refused -/

/-- Unknown formats and systems, and formats of UTC only with TAI. -/
theorem C108_refused (format sys : String) (v : Value) :
    (format ∉ formats → init format sys v = .error .valueError) ∧ (sys ∉ systems → init format sys v = .error .valueError)
    ∧ init "PY_DATE" "TAI" v = .error .valueError ∧ init "STR" "TAI" v = .error .valueError
    ∧ init "DP" "TAI" v = .error .valueError ∧ init "MCS" "TAI" v = .error .valueError := by
  refine ⟨fun h => by unfold init; rw [if_pos h], fun h => by unfold init; rw [if_pos h]; split <;> rfl, ?_, ?_, ?_, ?_⟩ <;>
    simp [init, formats, systems]

/-- Values of the wrong type: no numbers, ticks that are no whole numbers, pairs of the wrong length or with something else in them. -/
theorem C108_types (v a b : Value) (l : List Value) (x : Rat) (sys : String) (hs : sys ∈ systems) (hl : l.length ≠ 2) :
    (number v = none → init "JD" sys v = .error .typeError ∧ init "MJD" sys v = .error .typeError ∧ init "TIMET" sys v = .error .typeError)
    ∧ init "DP" "UTC" (.float x) = .error .typeError ∧ init "MCS" "UTC" (.seq l) = .error .valueError
    ∧ init "MCS" "UTC" (.float x) = .error .typeError
    ∧ (number a = none ∨ number b = none → init "MCS" "UTC" (.seq [a, b]) = .error .typeError) := by
  refine ⟨?_, by simp [init, formats, systems, setDp], ?_, by simp [init, formats, systems, setMcs], ?_⟩
  · intro hv
    simp only [systems, List.mem_cons, List.not_mem_nil, or_false] at hs
    rcases hs with rfl | rfl <;> simp [init, formats, systems, setNumber, hv]
  · match l, hl with
    | [], _ => simp [init, formats, systems, setMcs]
    | [_], _ => simp [init, formats, systems, setMcs]
    | _ :: _ :: _ :: _, _ => simp [init, formats, systems, setMcs]
  · intro h
    rcases h with h | h
    · simp [init, formats, systems, setMcs, h]
    · cases ha : number a <;> simp [init, formats, systems, setMcs, h, ha]

/-! ## Not vacuous -/

/-- A clock without leap seconds. -/
def exClock : Clock where
  tai x := x + 37 / 86400
  utc x := x - 37 / 86400
  tai_utc := by intro x; grind
  utc_tai := by intro x; grind
  mono := by intro x y h; grind

/-- 32 ticks more than a whole second are 32 seconds more. -/
example : ((init "DP" "UTC" (.int (1357608226 * 196000000 + 32))).toOption.map fun t => utcTimet exClock t) = some 1357608258 := by decide +kernel

end Verif.TimeObj

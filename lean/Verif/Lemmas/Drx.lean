import Verif.Model.Drx
import Verif.Lemmas.Bytes

namespace Verif.Drx

theorem slice_app {a m z : Bytes} {off w : Nat} (h : a.length = off) (hm : m.length = w) :
    slice (a ++ m ++ z) off w = m := by
  subst h; subst hm; simp [slice]

/-- Value of an int8 nibble after sign extension. -/
def nib (i : BitVec 8) : Int := lut (UInt8.ofBitVec (addBit i &&& 0xF#8)) 1

theorem nib_table : ∀ i : BitVec 8, -8 ≤ i.toInt → i.toInt ≤ 7 → nib i = i.toInt := by
  decide +kernel

theorem lut_range (b : UInt8) (j : Nat) : -8 ≤ lut b j ∧ lut b j ≤ 7 := by
  have key : ∀ t : Fin 16, -8 ≤ ((t.val : Int) - (((t.val &&& 8) <<< 1 : Nat) : Int)) ∧
      ((t.val : Int) - (((t.val &&& 8) <<< 1 : Nat) : Int)) ≤ 7 := by decide
  have h : (b.toNat >>> (4 * (1 - j))) &&& 15 < 16 := Nat.lt_succ_of_le Nat.and_le_right
  simpa [lut] using key ⟨_, h⟩

theorem lut8_range (b : UInt8) : -128 ≤ lut8 b ∧ lut8 b ≤ 127 := by
  have key : ∀ t : Fin 256, -128 ≤ ((t.val : Int) - (((t.val &&& 128) <<< 1 : Nat) : Int)) ∧
      ((t.val : Int) - (((t.val &&& 128) <<< 1 : Nat) : Int)) ≤ 127 := by decide +kernel
  exact key ⟨b.toNat, b.toNat_lt⟩

theorem pack_hi (i q : BitVec 8) : lut (packSample i q) 0 = nib i := by
  simp only [lut, nib, packSample]
  have : ((((addBit i &&& 0xF#8) <<< 4) ||| (addBit q &&& 0xF#8)).toNat >>> 4) &&& 15
      = ((addBit i &&& 0xF#8).toNat) &&& 15 := by
    generalize addBit i = a
    generalize addBit q = c
    have : ((((a &&& 0xF#8) <<< 4) ||| (c &&& 0xF#8)) >>> 4) = a &&& 0xF#8 := by
      ext k hk
      simp
      rcases k with _ | _ | _ | _ | _ | _ | _ | _ | k <;> simp <;> omega
    have h2 := congrArg BitVec.toNat this
    rw [BitVec.toNat_ushiftRight] at h2
    rw [h2]
  exact congrArg (fun t : Nat => (t : Int) - (((t &&& 8) <<< 1 : Nat) : Int)) this

theorem pack_lo (i q : BitVec 8) : lut (packSample i q) 1 = nib q := by
  simp only [lut, nib, packSample]
  have : ((((addBit i &&& 0xF#8) <<< 4) ||| (addBit q &&& 0xF#8)).toNat) &&& 15
      = ((addBit q &&& 0xF#8).toNat) &&& 15 := by
    generalize addBit i = a
    generalize addBit q = c
    have : ((((a &&& 0xF#8) <<< 4) ||| (c &&& 0xF#8)) &&& 15#8) = (c &&& 0xF#8) &&& 15#8 := by
      ext k hk
      simp
      rcases k with _ | _ | _ | _ | _ | _ | _ | _ | k <;> simp <;> omega
    simpa using congrArg BitVec.toNat this
  exact congrArg (fun t : Nat => (t : Int) - (((t &&& 8) <<< 1 : Nat) : Int)) this

theorem clip_range (x : Int) : -8 ≤ clip (-8) 7 x ∧ clip (-8) 7 x ≤ 7 := by
  unfold clip; omega

theorem quantise_toInt (x : Rat) : (quantise x).toInt = clip (-8) 7 (roundHalfEven x) := by
  have h := clip_range (roundHalfEven x)
  unfold quantise
  rw [BitVec.toInt_ofInt]
  generalize clip (-8) 7 (roundHalfEven x) = y at *
  simp [Int.bmod]
  omega

theorem nib_quantise (x : Rat) : nib (quantise x) = clip (-8) 7 (roundHalfEven x) := by
  have h := clip_range (roundHalfEven x)
  rw [nib_table _ (by rw [quantise_toInt]; exact h.1) (by rw [quantise_toInt]; exact h.2), quantise_toInt]

theorem toBytes_length (s : SimFrame) : s.toBytes.length = 32 + s.data.length := by
  simp [SimFrame.toBytes, syncBytes]; omega

theorem packId_lt (b t p : Nat) : packId b t p < 256 := by
  have h1 : b &&& 7 < 2^8 := Nat.lt_of_le_of_lt Nat.and_le_right (by decide)
  have h2 : (t &&& 7) <<< 3 < 2^8 := by
    have : t &&& 7 ≤ 7 := Nat.and_le_right
    rw [Nat.shiftLeft_eq]; omega
  have h3 : (p &&& 1) <<< 7 < 2^8 := by
    have : p &&& 1 ≤ 1 := Nat.and_le_right
    rw [Nat.shiftLeft_eq]; omega
  exact Nat.or_lt_two_pow (Nat.or_lt_two_pow h1 h2) h3

/-- What the header decoder makes of an encoded frame. -/
theorem decodeHeader_toBytes (s : SimFrame) (d : List (Int × Int)) :
    decodeHeader s.toBytes d =
      { frameCount := 0, drxId := packId s.beam s.tune s.pol, secondCount := 0,
        decimation := s.decimation % 65536, timeOffset := s.timeOffset % 65536,
        timetag := s.obsTime % 2 ^ 64, tuningWord := s.flags / 2 ^ 32 % 2 ^ 32,
        flags := s.flags % 2 ^ 32, data := d } := by
  have hid : slice s.toBytes 4 1 = beEnc 1 (packId s.beam s.tune s.pol) := by
    simp [SimFrame.toBytes, syncBytes, beEnc, slice]
  have hfc : slice s.toBytes 5 3 = beEnc 3 0 := by
    simp [SimFrame.toBytes, syncBytes, beEnc, slice]
  have hsc : slice s.toBytes 8 4 = beEnc 4 0 := by
    simp [SimFrame.toBytes, syncBytes, beEnc, slice]
  have hde : slice s.toBytes 12 2 = beEnc 2 s.decimation := by
    simp [SimFrame.toBytes, syncBytes, beEnc, slice]
  have hto : slice s.toBytes 14 2 = beEnc 2 s.timeOffset := by
    simp [SimFrame.toBytes, syncBytes, beEnc, slice]
  have htt : slice s.toBytes 16 8 = beEnc 8 s.obsTime := by
    simp [SimFrame.toBytes, syncBytes, beEnc, slice]
  have htw : slice s.toBytes 24 4 = beEnc 4 (s.flags / 2 ^ 32) := by
    simp [SimFrame.toBytes, syncBytes, beEnc, slice, Nat.div_div_eq_div_mul]
  have hfl : slice s.toBytes 28 4 = beEnc 4 s.flags := by
    simp [SimFrame.toBytes, syncBytes, beEnc, slice]
  simp only [decodeHeader, hid, hfc, hsc, hde, hto, htt, htw, hfl, beDec_beEnc]
  have := packId_lt s.beam s.tune s.pol
  simp
  omega

theorem decodeData_toBytes (s : SimFrame) :
    decodeData (s.toBytes.drop 32) =
      s.data.map (fun x => (clip (-8) 7 (roundHalfEven x.1), clip (-8) 7 (roundHalfEven x.2))) := by
  have : s.toBytes.drop 32 = s.data.map (fun x => packSample (quantise x.1) (quantise x.2)) := by
    simp [SimFrame.toBytes, syncBytes, beEnc]
  rw [this, decodeData, List.map_map]
  congr 1
  funext x
  simp [pack_hi, pack_lo, nib_quantise]

theorem decodeData8_length (b : Bytes) : (decodeData8 b).length = b.length / 2 := by
  fun_induction decodeData8 b with
  | case1 r i l ih => simp [ih]; omega
  | case2 l h =>
    match l, h with
    | [], _ => rfl
    | [x], _ => simp
    | x :: y :: l, h => exact absurd rfl (h x y l)

theorem decodeData8_range (b : Bytes) :
    ∀ x ∈ decodeData8 b, -128 ≤ x.1 ∧ x.1 ≤ 127 ∧ -128 ≤ x.2 ∧ x.2 ≤ 127 := by
  fun_induction decodeData8 b with
  | case1 r i l ih =>
    intro x hx
    rcases List.mem_cons.1 hx with h | h
    · subst h
      have h1 := lut8_range r
      have h2 := lut8_range i
      exact ⟨h1.1, h1.2, h2.1, h2.2⟩
    · exact ih x h
  | case2 => intro x hx; cases hx

end Verif.Drx

import Verif.Model.VdifFile
import Verif.Props.Vdif
/-!
# C112: VDIF files: threads, frames in a second, times and extended user data
-/
namespace Verif.Vdif

/-! ## Threads -/

theorem addNew_mem (l : List Nat) (x y : Nat) : y ∈ addNew l x ↔ y ∈ l ∨ y = x := by
  unfold addNew
  split
  · constructor
    · exact Or.inl
    · rintro (h | rfl)
      · exact h
      · assumption
  · simp

theorem addNew_nodup (l : List Nat) (x : Nat) (h : l.Nodup) : (addNew l x).Nodup := by
  unfold addNew
  split
  · exact h
  · rename_i hx
    rw [List.nodup_append]
    refine ⟨h, by simp, ?_⟩
    intro a ha b hb
    simp only [List.mem_singleton] at hb
    subst hb
    rintro rfl
    exact hx ha

theorem fold_addNew (xs l : List Nat) (h : l.Nodup) :
    (xs.foldl addNew l).Nodup ∧ ∀ y, y ∈ xs.foldl addNew l ↔ y ∈ l ∨ y ∈ xs := by
  induction xs generalizing l with
  | nil => exact ⟨h, by simp⟩
  | cons x xs ih =>
    obtain ⟨h1, h2⟩ := ih (addNew l x) (addNew_nodup l x h)
    refine ⟨h1, ?_⟩
    intro y
    rw [List.foldl_cons, h2 y, addNew_mem, List.mem_cons, or_assoc]

/-- The number of threads is that of the different threads of the first 1024 frames. -/
theorem C112_threads (fs : List Fr) (ts : List Nat) (hn : ts.Nodup) (h : ∀ t, t ∈ ts ↔ ∃ f ∈ fs.take 1024, f.thread = t) :
    threadCount fs = ts.length := by
  obtain ⟨h1, h2⟩ := fold_addNew ((fs.take 1024).map (·.thread)) [] List.nodup_nil
  apply List.Perm.length_eq
  rw [List.perm_ext_iff_of_nodup h1 hn]
  intro y
  rw [h2 y, h y, List.mem_map]
  simp

/-! ## Frames in a second -/

theorem file_threads (rate : Nat) (ts : List Nat) (g m : Nat) : ∀ f ∈ fileFrom rate ts g m, f.thread ∈ ts := by
  induction m generalizing g with
  | zero => intro f hf; cases hf
  | succ m ih =>
    intro f hf
    unfold fileFrom at hf
    rcases List.mem_append.mp hf with h | h
    · obtain ⟨t, ht, rfl⟩ := List.mem_map.mp h
      exact ht
    · exact ih _ f h

theorem C112_file_threads (rate : Nat) (ts : List Nat) (g m : Nat) (hn : ts.Nodup) (h1 : ts.length ≤ 1024) (hm : 0 < m) :
    threadCount (fileFrom rate ts g m) = ts.length := by
  apply C112_threads _ _ hn
  intro t
  constructor
  · intro ht
    refine ⟨⟨t, g / rate, g % rate⟩, ?_, rfl⟩
    obtain ⟨k, rfl⟩ : ∃ k, m = k + 1 := ⟨m - 1, by omega⟩
    unfold fileFrom
    rw [List.take_append]
    apply List.mem_append_left
    rw [List.take_of_length_le (by simp [rowAt]; omega)]
    exact List.mem_map.mpr ⟨t, ht, rfl⟩
  · rintro ⟨f, hf, rfl⟩
    exact file_threads _ _ _ _ f (List.mem_of_mem_take hf)

theorem refOf_row (rate : Nat) (ts : List Nat) (g : Nat) (rest : List Fr) :
    refOf ts.length (rowAt rate ts g ++ rest) = fun t => if t ∈ ts then some (g / rate) else none := by
  unfold refOf
  rw [List.take_left' (by simp [rowAt])]
  have : ∀ (ts : List Nat) (r : Nat → Option Nat), (rowAt rate ts g).foldl (fun r f => upd r f.thread f.sec) r = fun t => if t ∈ ts then some (g / rate) else r t := by
    intro ts
    induction ts with
    | nil => intro r; funext t; simp [rowAt]
    | cons x ts ih =>
      intro r
      have := ih (upd r x (g / rate))
      rw [show rowAt rate (x :: ts) g = ⟨x, g / rate, g % rate⟩ :: rowAt rate ts g from rfl, List.foldl_cons, this]
      funext t
      by_cases h1 : t ∈ ts
      · simp [h1]
      · by_cases h2 : t = x
        · simp [upd, h2]
        · simp [h1, h2, upd]
  exact this ts _

/-- A row of the same second: the numbers are taken. -/
theorem watch_same (n v s : Nat) (ts : List Nat) (rest : List Fr) (c : Cnt) (hr : ∀ t ∈ ts, c.ref t = some s) (hf : c.fnd.length ≠ n) :
    watch n (ts.map (fun t => ⟨t, s, v⟩) ++ rest) c
      = watch n rest { c with keys := ts.foldl addNew c.keys, cur := fun t => if t ∈ ts then some v else c.cur t } := by
  induction ts generalizing c with
  | nil => simp
  | cons x ts ih =>
    rw [List.map_cons, List.cons_append]
    have hseen : seen c ⟨x, s, v⟩ = some { c with keys := addNew c.keys x, cur := upd c.cur x v } := by
      unfold seen
      rw [hr x (by simp)]
      simp
    have hw : watch n (⟨x, s, v⟩ :: (ts.map (fun t => ⟨t, s, v⟩) ++ rest)) c
        = watch n (ts.map (fun t => ⟨t, s, v⟩) ++ rest) { c with keys := addNew c.keys x, cur := upd c.cur x v } := by
      conv => lhs; unfold watch
      rw [hseen]
      simp only
      rw [if_neg hf]
    rw [hw, ih { c with keys := addNew c.keys x, cur := upd c.cur x v } (by intro t ht; exact hr t (by simp [ht])) hf]
    congr 1
    simp only [List.foldl_cons, Cnt.mk.injEq, true_and, and_true]
    funext t
    by_cases h1 : t ∈ ts
    · simp [h1]
    · by_cases h2 : t = x
      · simp [upd, h2]
      · simp [h1, h2, upd]

/-- The first row of another second: the search ends with the numbers as they were. -/
theorem watch_change (v s s' : Nat) (hs : s' ≠ s) (ts done : List Nat) (rest : List Fr) (c : Cnt) (hn : (done ++ ts).Nodup) (h0 : ts ≠ [])
    (hr : ∀ t ∈ ts, c.ref t = some s) (hf : c.fnd = done) :
    ∃ c', watch (done ++ ts).length (ts.map (fun t => ⟨t, s', v⟩) ++ rest) c = some c' ∧ c'.keys = c.keys ∧ c'.cur = c.cur := by
  induction ts generalizing c done with
  | nil => exact absurd rfl h0
  | cons x ts ih =>
    rw [List.map_cons, List.cons_append]
    unfold watch seen
    rw [hr x (by simp)]
    simp only
    rw [if_neg hs]
    simp only
    have hx : x ∉ done := by
      intro h
      rw [List.nodup_append] at hn
      exact hn.2.2 x h x (by simp) rfl
    have hfn : addNew c.fnd x = done ++ [x] := by
      unfold addNew
      rw [hf, if_neg hx]
    have hap : done ++ x :: ts = (done ++ [x]) ++ ts := by simp
    cases ts with
    | nil =>
      rw [hfn, if_pos (by simp)]
      exact ⟨_, rfl, rfl, rfl⟩
    | cons y ts =>
      rw [hfn, if_neg (by simp)]
      rw [hap] at hn ⊢
      obtain ⟨c', h1, h2, h3⟩ := ih (done ++ [x]) { c with ref := upd c.ref x s', fnd := done ++ [x] } hn (by simp)
        (by
          intro t ht
          have hne : t ≠ x := by
            rintro rfl
            rw [List.nodup_append] at hn
            exact hn.2.2 t (by simp) t ht rfl
          simp only [upd, hne, ↓reduceIte]
          exact hr t (List.mem_cons_of_mem _ ht)) rfl
      exact ⟨c', h1, h2, h3⟩

theorem fold_new (ts l : List Nat) (h : ts.Nodup) (hd : ∀ t ∈ ts, t ∉ l) : ts.foldl addNew l = l ++ ts := by
  induction ts generalizing l with
  | nil => simp
  | cons x ts ih =>
    rw [List.nodup_cons] at h
    rw [List.foldl_cons, show addNew l x = l ++ [x] by unfold addNew; rw [if_neg (hd x (by simp))], ih _ h.2]
    · simp
    · intro t ht hm
      rcases List.mem_append.mp hm with h' | h'
      · exact hd t (by simp [ht]) h'
      · simp only [List.mem_singleton] at h'
        subst h'
        exact h.1 ht

theorem fold_old (ts l : List Nat) (hd : ∀ t ∈ ts, t ∈ l) : ts.foldl addNew l = l := by
  induction ts with
  | nil => rfl
  | cons x ts ih => rw [List.foldl_cons, show addNew l x = l by unfold addNew; rw [if_pos (hd x (by simp))], ih fun t ht => hd t (by simp [ht])]

theorem bump_all (v k c : Nat) : (List.replicate k v).foldl bump [(v, c)] = [(v, c + k)] := by
  induction k generalizing c with
  | zero => rfl
  | succ k ih =>
    rw [List.replicate_succ, List.foldl_cons, show bump [(v, c)] v = [(v, c + 1)] by simp [bump], ih]
    congr 2
    omega

theorem best_row (ts : List Nat) (v : Nat) (f : Nat → Option Nat) (h0 : ts ≠ []) (hf : ∀ t ∈ ts, f t = some v) :
    (bestOf ((ts.filterMap f).foldl bump [])).1 = v := by
  have : ts.filterMap f = List.replicate ts.length v := by
    clear h0
    induction ts with
    | nil => rfl
    | cons x ts ih => rw [List.filterMap_cons, hf x (by simp), ih fun t ht => hf t (by simp [ht])]; rfl
  rw [this]
  obtain ⟨x, l, rfl⟩ := List.exists_cons_of_ne_nil h0
  rw [List.length_cons, List.replicate_succ, List.foldl_cons, show bump [] v = [(v, 1)] from rfl, bump_all]
  simp only [bestOf, List.foldl_cons, List.foldl_nil]
  rw [if_pos (by omega)]

/-- The best number is one that is there most often. -/
theorem C112_mode (m : List (Nat × Nat)) (h : ∃ x ∈ m, 0 < x.2) : bestOf m ∈ m ∧ ∀ x ∈ m, x.2 ≤ (bestOf m).2 := by
  have key : ∀ (m : List (Nat × Nat)) (b : Nat × Nat),
      (m.foldl (fun b x => if b.2 < x.2 then x else b) b ∈ m ∨ m.foldl (fun b x => if b.2 < x.2 then x else b) b = b)
      ∧ b.2 ≤ (m.foldl (fun b x => if b.2 < x.2 then x else b) b).2 ∧ ∀ x ∈ m, x.2 ≤ (m.foldl (fun b x => if b.2 < x.2 then x else b) b).2 := by
    intro m
    induction m with
    | nil => intro b; simp
    | cons y m ih =>
      intro b
      rw [List.foldl_cons]
      obtain ⟨h1, h2, h3⟩ := ih (if b.2 < y.2 then y else b)
      refine ⟨?_, ?_, ?_⟩
      · rcases h1 with h | h
        · exact Or.inl (List.mem_cons_of_mem _ h)
        · rw [h]
          split
          · exact Or.inl (by simp)
          · exact Or.inr rfl
      · by_cases hb : b.2 < y.2
        · simp only [hb, ↓reduceIte] at h2 ⊢
          omega
        · simp only [hb, ↓reduceIte] at h2 ⊢
          exact h2
      · intro x hx
        rcases List.mem_cons.mp hx with rfl | hx
        · by_cases hb : b.2 < x.2
          · simp only [hb, ↓reduceIte] at h2 ⊢
            exact h2
          · simp only [hb, ↓reduceIte] at h2 ⊢
            omega
        · exact h3 x hx
  obtain ⟨h1, h2, h3⟩ := key m (0, 0)
  refine ⟨?_, h3⟩
  rcases h1 with h' | h'
  · exact h'
  · obtain ⟨x, hx, hp⟩ := h
    have := h3 x hx
    rw [h'] at this
    simp only at this
    omega

/-- The rows after the first one, up to the next second or the end of the file. -/
theorem watch_rows (rate : Nat) (hrate : 0 < rate) (ts : List Nat) (hn : ts.Nodup) (h0 : ts ≠ []) (s : Nat) (m g : Nat) (c : Cnt)
    (hs : g / rate = s ∨ g = (s + 1) * rate) (hr : ∀ t ∈ ts, c.ref t = some s) (hf : c.fnd = [])
    (hk : c.keys = ts) (hc : ∀ t ∈ ts, c.cur t = some ((g - 1) % rate)) (hg : s * rate < g) :
    (watch ts.length (fileFrom rate ts g m) c).map (fun c => (bestOf ((c.keys.filterMap c.cur).foldl bump [])).1 + 1)
      = some (min rate (g - s * rate + m)) := by
  have hlen : 0 < ts.length := List.length_pos_iff.mpr h0
  have hle : g ≤ (s + 1) * rate := by
    rcases hs with h | h
    · have := Nat.lt_mul_div_succ g hrate
      rw [h, Nat.mul_comm] at this
      omega
    · omega
  have hval : (g - 1) % rate + 1 = g - s * rate := by
    have e : g - 1 = (g - 1 - s * rate) + rate * s := by rw [Nat.mul_comm rate s]; omega
    rw [e, Nat.add_mul_mod_self_left, Nat.mod_eq_of_lt (by rw [Nat.succ_mul] at hle; omega)]
    omega
  induction m generalizing g c with
  | zero =>
    have : g - s * rate ≤ rate := by rw [Nat.succ_mul] at hle; omega
    simp only [fileFrom, watch, Option.map_some, hk, best_row ts _ c.cur h0 hc, Nat.add_zero, hval]
    congr 1
    omega
  | succ m ih =>
    unfold fileFrom
    by_cases hlast : g = (s + 1) * rate
    · have hdiv : g / rate = s + 1 := by rw [hlast]; exact Nat.mul_div_cancel _ hrate
      have := watch_change (g % rate) s (g / rate) (by omega) ts [] (fileFrom rate ts (g + 1) m) c hn h0 hr hf
      rw [List.nil_append] at this
      obtain ⟨c', h1, h2, h3⟩ := this
      unfold rowAt
      rw [h1]
      simp only [Option.map_some, h2, h3, hk, best_row ts _ c.cur h0 hc, hval]
      congr 1
      rw [hlast, Nat.succ_mul]
      omega
    · have hdiv : g / rate = s := by rcases hs with h | h; exact h; exact absurd h hlast
      unfold rowAt
      rw [hdiv, watch_same _ _ _ _ _ _ hr (by rw [hf]; simpa using (Nat.ne_of_gt hlen).symm)]
      have hg1 : g + 1 ≤ (s + 1) * rate := by omega
      rw [ih (g + 1)]
      · congr 2
        omega
      · by_cases h : g + 1 = (s + 1) * rate
        · exact Or.inr h
        · left
          apply Nat.div_eq_of_lt_le
          · omega
          · omega
      · exact hr
      · exact hf
      · simp only
        rw [hk]
        exact fold_old ts ts fun _ h => h
      · intro t ht
        simp [ht]
      · omega
      · exact hg1
      · have e : g + 1 - 1 = (g - s * rate) + rate * s := by rw [Nat.mul_comm rate s]; omega
        rw [e, Nat.add_mul_mod_self_left, Nat.mod_eq_of_lt (by rw [Nat.succ_mul] at hg1; omega)]
        omega

/-- The number of frames in a second of a file that does not begin with the last frame of a second: it is that of every thread if
the file goes on to the next second, and else what there is of the second. -/
theorem C112_rate_partial (rate : Nat) (ts : List Nat) (hn : ts.Nodup) (h0 : ts ≠ []) (h1 : ts.length ≤ 1024) (g m : Nat)
    (hg : g % rate + 1 < rate) (hm : 2 ≤ m) :
    framesPerSecond (fileFrom rate ts g m) = some (min rate (g % rate + m)) := by
  have hrate : 0 < rate := by omega
  obtain ⟨m, rfl⟩ : ∃ k, m = k + 2 := ⟨m - 2, by omega⟩
  unfold framesPerSecond
  rw [C112_file_threads rate ts g _ hn h1 (by omega)]
  unfold fileFrom
  rw [refOf_row, List.drop_left' (by simp [rowAt])]
  have hdiv : (g + 1) / rate = g / rate := by
    have := Nat.div_add_mod g rate
    apply Nat.div_eq_of_lt_le
    · rw [Nat.mul_comm]; omega
    · rw [Nat.succ_mul, Nat.mul_comm]; omega
  have hmod : (g + 1) % rate = g % rate + 1 := by
    have a := Nat.div_add_mod g rate
    have b := Nat.div_add_mod (g + 1) rate
    rw [hdiv] at b
    omega
  unfold fileFrom
  rw [show rowAt rate ts (g + 1) = ts.map (fun t => ⟨t, g / rate, (g + 1) % rate⟩) by unfold rowAt; rw [hdiv]]
  rw [watch_same _ _ (g / rate) _ _ _ (by intro t ht; simp [ht]) (by simpa using (Nat.ne_of_gt (List.length_pos_iff.mpr h0)).symm)]
  have hdm := Nat.div_add_mod g rate
  rw [watch_rows rate hrate ts hn h0 (g / rate) m (g + 1 + 1)]
  · congr 2
    rw [Nat.mul_comm]
    omega
  · by_cases h : g % rate + 2 = rate
    · right
      rw [Nat.succ_mul, Nat.mul_comm (g / rate)]
      omega
    · left
      apply Nat.div_eq_of_lt_le
      · rw [Nat.mul_comm]; omega
      · rw [Nat.succ_mul, Nat.mul_comm]; omega
  · intro t ht; simp [ht]
  · rfl
  · exact (fold_new ts [] hn (by simp)).trans (by simp)
  · intro t ht; simp [ht]
  · rw [Nat.mul_comm]; omega

/-- So is the sample rate. -/
theorem C112_sample_rate_partial (samples rate : Nat) (ts : List Nat) (hn : ts.Nodup) (h0 : ts ≠ []) (h1 : ts.length ≤ 1024) (g m : Nat)
    (hg : g % rate + 1 < rate) (hm : rate < g % rate + m) :
    sampleRate samples (fileFrom rate ts g m) = some (samples * rate) := by
  unfold sampleRate
  rw [C112_rate_partial rate ts hn h0 h1 g m hg (by omega)]
  simp only [Option.map_some]
  congr 2
  omega

example : framesPerSecond (fileFrom 5 [2, 0, 7] 12 10) = some 5 ∧ framesPerSecond (fileFrom 5 [2, 0, 7] 12 2) = some 4 := by decide +kernel

/-- A file that begins with the last frame of a second has one frame in a second. -/
theorem C112_not_last : framesPerSecond (fileFrom 5 [0, 1] 4 20) = some 1 := by decide +kernel

/-- If a thread has no frame at first, there is `KeyError`. -/
theorem C112_not_missing : framesPerSecond (⟨0, 0, 0⟩ :: fileFrom 5 [0, 1] 1 20) = none := by decide +kernel

/-- If a thread stops, the others are counted on into the next seconds. -/
theorem C112_not_stopped : framesPerSecond (fileFrom 5 [0, 1] 0 3 ++ fileFrom 5 [0] 3 5) = some 3 := by decide +kernel

/-- From one thread of 1025 on, some are not seen. -/
theorem C112_not_many (fs : List Fr) : threadCount fs ≤ 1024 := by
  have hlen : ∀ (xs l : List Nat), (xs.foldl addNew l).length ≤ l.length + xs.length := by
    intro xs
    induction xs with
    | nil => intro l; simp
    | cons x xs ih =>
      intro l
      have h1 := ih (addNew l x)
      have h2 : (addNew l x).length ≤ l.length + 1 := by unfold addNew; split <;> simp
      simp only [List.foldl_cons, List.length_cons]
      omega
  have := hlen ((fs.take 1024).map (·.thread)) []
  simp only [List.length_nil, List.length_map, List.length_take] at this
  unfold threadCount
  omega

/-! ## Times -/

/-- Frames are as many samples apart as they have, if the rate is a whole number of frames in a second. -/
theorem C112_offset_partial (samples k num : Nat) (h : 0 < samples) (hk : 0 < k) :
    offset ((samples * k : Nat) : Rat) samples num * ((samples * k : Nat) : Rat) = ((num * samples : Nat) : Rat) := by
  unfold offset
  have hs : (samples : Rat) ≠ 0 := by
    intro e
    have : (samples : Rat) = ((0 : Nat) : Rat) := e
    rw [Rat.natCast_inj] at this
    omega
  have hk' : (k : Rat) ≠ 0 := by
    intro e
    have : (k : Rat) = ((0 : Nat) : Rat) := e
    rw [Rat.natCast_inj] at this
    omega
  have e : ((samples * k : Nat) : Rat) / (samples : Rat) = ((k : Int) : Rat) := by
    rw [Rat.natCast_mul]
    show (samples : Rat) * (k : Rat) / (samples : Rat) = (k : Rat)
    grind
  rw [e, Rat.floor_intCast, Rat.natCast_mul, Rat.natCast_mul]
  show (num : Rat) / (k : Rat) * _ = _
  grind

/-- Otherwise frames of the rate 10 and 3 samples are a third of a second apart. -/
theorem C112_not_offset : offset 10 3 1 = 1 / 3 ∧ (3 : Rat) / 10 ≠ 1 / 3 := by decide +kernel

/-- The samples of a frame that was written. -/
theorem C112_samples (k bits n : Nat) (complex : Bool) (hb : bits = 1 ∨ bits = 2 ∨ bits = 4 ∨ bits = 8)
    (hn : 8 * k * 8 = n * bits * (if complex then 2 else 1)) : nSamples (4 + k) 0 bits 1 complex = n := by
  unfold nSamples
  rcases hb with rfl | rfl | rfl | rfl <;> cases complex <;> simp at hn ⊢ <;> omega

/-! ## Extended user data -/

theorem bits (w k n : Nat) : (w >>> k) &&& (2 ^ n - 1) = w / 2 ^ k % 2 ^ n := by
  rw [Nat.and_two_pow_sub_one_eq_mod, Nat.shiftRight_eq_div_pow]

theorem bits1 (w k : Nat) : (w >>> k) &&& 1 = w / 2 ^ k % 2 := bits w k 1
theorem bits4 (w k : Nat) : (w >>> k) &&& 0xF = w / 2 ^ k % 2 ^ 4 := bits w k 4
theorem bits3 (w k : Nat) : (w >>> k) &&& 0x7 = w / 2 ^ k % 2 ^ 3 := bits w k 3
theorem bits8 (w k : Nat) : (w >>> k) &&& 0xFF = w / 2 ^ k % 2 ^ 8 := bits w k 8
theorem bits12 (w k : Nat) : (w >>> k) &&& 0xFFF = w / 2 ^ k % 2 ^ 12 := bits w k 12
theorem low8 (w : Nat) : w &&& 0xFF = w % 2 ^ 8 := Nat.and_two_pow_sub_one_eq_mod w 8
theorem low16 (w : Nat) : w &&& 0xFFFF = w % 2 ^ 16 := Nat.and_two_pow_sub_one_eq_mod w 16
theorem low4 (w : Nat) : w &&& 0xF = w % 2 ^ 4 := Nat.and_two_pow_sub_one_eq_mod w 4
theorem low23 (w : Nat) : w &&& (2 ^ 23 - 1) = w % 2 ^ 23 := Nat.and_two_pow_sub_one_eq_mod w 23
theorem low14 (w : Nat) : w &&& (2 ^ 14 - 1) = w % 2 ^ 14 := Nat.and_two_pow_sub_one_eq_mod w 14

theorem twoWords (a b : Nat) (h : b < 2 ^ 32) : (a <<< 32) ||| b = a * 2 ^ 32 + b := by
  rw [Nat.shiftLeft_eq, Nat.mul_comm, ← Nat.two_pow_add_eq_or_of_lt h]

/-- Data of the first version: rate, unit, and station. -/
theorem C112_nict (rate u w2 w3 w4 : Nat) (hr : rate < 2 ^ 23) (hu : u < 2) (h3 : w3 < 2 ^ 32) :
    extended (rate + u * 2 ^ 23 + 1 * 2 ^ 24) w2 w3 w4 = some (.nict rate (u == 1) w2 (w4 * 2 ^ 32 + w3)) := by
  have hv : ((rate + u * 2 ^ 23 + 1 * 2 ^ 24) >>> 24) &&& 0xFF = 1 := by
    rw [bits8]; omega
  unfold extended
  rw [hv]
  have e1 : (rate + u * 2 ^ 23 + 1 * 2 ^ 24) % 2 ^ 23 = rate := by omega
  have e2 : (rate + u * 2 ^ 23 + 1 * 2 ^ 24) / 2 ^ 23 % 2 = u := by omega
  simp only [low23, bits1, twoWords w4 w3 h3]
  rw [e1, e2]

/-- Data of the second version. -/
theorem C112_alma (sync x w2 w3 w4 : Nat) (hs : sync < 2 ^ 16) (hx : x < 2 ^ 8) (h3 : w3 < 2 ^ 32) :
    extended (sync + x * 2 ^ 16 + 2 * 2 ^ 24) w2 w3 w4 = some (.alma sync w2 (w4 * 2 ^ 32 + w3)) := by
  have hv : ((sync + x * 2 ^ 16 + 2 * 2 ^ 24) >>> 24) &&& 0xFF = 2 := by
    rw [bits8]; omega
  unfold extended
  rw [hv]
  have e1 : (sync + x * 2 ^ 16 + 2 * 2 ^ 24) % 2 ^ 16 = sync := by omega
  simp only [low16, twoWords w4 w3 h3]
  rw [e1]

/-- Data of the third version. -/
theorem C112_nrao (rate u w2 w3 dbe inp sub side major minor pers top : Nat) (hr : rate < 2 ^ 23) (hu : u < 2) (hd : dbe < 2 ^ 4) (hi : inp < 2 ^ 4)
    (hs : sub < 2 ^ 3) (he : side < 2) (hmj : major < 2 ^ 4) (hmn : minor < 2 ^ 4) (hp : pers < 2 ^ 8) :
    extended (rate + u * 2 ^ 23 + 3 * 2 ^ 24) w2 w3
        (pers + minor * 2 ^ 8 + major * 2 ^ 12 + side * 2 ^ 16 + sub * 2 ^ 17 + inp * 2 ^ 20 + dbe * 2 ^ 24 + top * 2 ^ 28)
      = some (.nrao rate (u == 1) w2 w3 dbe inp sub (side == 1) major minor pers) := by
  have hv : ((rate + u * 2 ^ 23 + 3 * 2 ^ 24) >>> 24) &&& 0xFF = 3 := by
    rw [bits8]; omega
  have e1 : (rate + u * 2 ^ 23 + 3 * 2 ^ 24) % 2 ^ 23 = rate := by omega
  have e2 : (rate + u * 2 ^ 23 + 3 * 2 ^ 24) / 2 ^ 23 % 2 = u := by omega
  unfold extended
  rw [hv]
  simp only [low23, low8, bits1, bits3, bits4]
  rw [e1, e2]
  generalize hw : pers + minor * 2 ^ 8 + major * 2 ^ 12 + side * 2 ^ 16 + sub * 2 ^ 17 + inp * 2 ^ 20 + dbe * 2 ^ 24 + top * 2 ^ 28 = w
  have a1 : w / 2 ^ 24 % 2 ^ 4 = dbe := by omega
  have a2 : w / 2 ^ 20 % 2 ^ 4 = inp := by omega
  have a3 : w / 2 ^ 17 % 2 ^ 3 = sub := by omega
  have a4 : w / 2 ^ 16 % 2 = side := by omega
  have a5 : w / 2 ^ 12 % 2 ^ 4 = major := by omega
  have a6 : w / 2 ^ 8 % 2 ^ 4 = minor := by omega
  have a7 : w % 2 ^ 8 = pers := by omega
  rw [a1, a2, a3, a4, a5, a6, a7]

/-- Other versions are refused, and none is empty. -/
theorem C112_versions (v x w2 w3 w4 : Nat) (hx : x < 2 ^ 24) (hv : v < 2 ^ 8) :
    (extended (x + v * 2 ^ 24) w2 w3 w4 = none ↔ v ∉ [0, 1, 2, 3, 0xAB]) ∧ extended x w2 w3 w4 = some .empty := by
  have e : ((x + v * 2 ^ 24) >>> 24) &&& 0xFF = v := by rw [bits8]; omega
  have e0 : (x >>> 24) &&& 0xFF = 0 := by rw [bits8]; omega
  constructor
  · unfold extended
    rw [e]
    split <;> simp_all
  · unfold extended
    rw [e0]
    rfl

/-- The rate that the writer puts into a frame is read from it, up to 8.4 GHz. -/
theorem C112_written_partial (w : WFrame) (h : WOk w) (hr : w.rateKHz < 2 ^ 23) (pre post : Bytes) :
    ∃ raw r, encode w = some raw ∧ read (pre ++ raw ++ post) pre.length = (.ok r, pre.length + raw.length)
      ∧ (extended r.ext.1 r.ext.2.1 r.ext.2.2.1 r.ext.2.2.2).bind rateHz = some (w.rateKHz * 1000) := by
  obtain ⟨raw, r, h1, _, h2, _, _, _, _, _, _, _, _, _, _, _, _, _, hx⟩ := C06_roundtrip_partial w h pre post
  refine ⟨raw, r, h1, h2, ?_⟩
  rw [hx]
  have := C112_nict w.rateKHz 0 0 0 0 hr (by omega) (by omega)
  simp only [Nat.zero_mul, Nat.add_zero, Nat.one_mul, show (2 : Nat) ^ 24 = 16777216 from rfl] at this
  simp only [this]
  rfl

/-- From 2^23 kHz on it is read in MHz. -/
theorem C112_not_fast : (extended (2 ^ 23 + 5 + 2 ^ 24) 0 0 0).bind rateHz = some 5000000 := by decide +kernel

/-- Data of Haystack: the year, the user's data, the test flag, and the number of the frame if below 2^14. -/
theorem C112_haystack_partial (low years user tvg frame w3 w4 : Nat) (hl : low < 2 ^ 24) (hy : years < 2 ^ 4) (hu : user < 2 ^ 12) (ht : tvg < 2)
    (hf : frame < 2 ^ 14) :
    ∃ v, extended (low + 0xAB * 2 ^ 24) (frame + tvg * 2 ^ 15 + user * 2 ^ 16 + years * 2 ^ 28) w3 w4
      = some (.haystack (low + 0xAB * 2 ^ 24) years user tvg frame (timecode w3 w4) v) := by
  have hv : ((low + 0xAB * 2 ^ 24) >>> 24) &&& 0xFF = 0xAB := by
    rw [bits8]; omega
  refine ⟨crcc ((w3 <<< 16) ||| ((w3 >>> 16) &&& 0xFF)) 48 0o40003 16 == crcf w4, ?_⟩
  unfold extended
  rw [hv]
  generalize (crcc ((w3 <<< 16) ||| ((w3 >>> 16) &&& 0xFF)) 48 0o40003 16 == crcf w4) = v
  simp only [bits1, bits4, bits12, low14]
  generalize hw : frame + tvg * 2 ^ 15 + user * 2 ^ 16 + years * 2 ^ 28 = w
  have a1 : w / 2 ^ 28 % 2 ^ 4 = years := by omega
  have a2 : w / 2 ^ 16 % 2 ^ 12 = user := by omega
  have a3 : w / 2 ^ 15 % 2 = tvg := by omega
  have a4 : w % 2 ^ 14 = frame := by omega
  rw [a1, a2, a3, a4]

/-- The number has 15 bits, of which the first is lost. -/
theorem C112_not_frame : (match extended 0xABADDEED (2 ^ 14 + 7) 0 0 with | some (.haystack _ _ _ _ f _ _) => some f | _ => none) = some 7 := by
  decide +kernel

theorem pack8 (a b c d e f g h : Nat) (ha : a < 16) (hb : b < 16) (hc : c < 16) (hd : d < 16) (he : e < 16) (hf : f < 16) (hg : g < 16) (hh : h < 16) :
    [28, 24, 20, 16, 12, 8, 4, 0].map (nib (packDigits [a, b, c, d, e, f, g, h])) = [a, b, c, d, e, f, g, h] := by
  simp only [List.map_cons, List.map_nil, nib, bits4, packDigits, List.length_cons, List.length_nil]
  simp only [List.cons.injEq, and_true]
  refine ⟨?_, ?_, ?_, ?_, ?_, ?_, ?_, ?_⟩ <;> omega

/-- The time code: day and second from the digits of the third word, the fraction from four digits of the fourth, and, which is
wrong, a fifth one from the check. -/
theorem C112_timecode_partial (a b c d e f g h f0 f1 f2 f3 x0 x1 x2 x3 : Nat) (ha : a < 16) (hb : b < 16) (hc : c < 16) (hd : d < 16) (he : e < 16)
    (hf : f < 16) (hg : g < 16) (hh : h < 16) (h0 : f0 < 16) (h1 : f1 < 16) (h2 : f2 < 16) (h3 : f3 < 16) (y0 : x0 < 16) (y1 : x1 < 16) (y2 : x2 < 16)
    (y3 : x3 < 16) :
    timecode (packDigits [a, b, c, d, e, f, g, h]) (packDigits [f0, f1, f2, f3, x0, x1, x2, x3])
      = (bcd [a, b, c, d, e, f, g, h] : Rat) + (bcd [f0, f1, f2, f3] : Rat) / 10 ^ 4 + (x1 : Rat) / 10 ^ 5 := by
  have p := pack8 a b c d e f g h ha hb hc hd he hf hg hh
  have q := pack8 f0 f1 f2 f3 x0 x1 x2 x3 h0 h1 h2 h3 y0 y1 y2 y3
  simp only [List.map_cons, List.map_nil, List.cons.injEq, and_true] at p q
  obtain ⟨p1, p2, p3, p4, p5, p6, p7, p8⟩ := p
  obtain ⟨q1, q2, q3, q4, q5, q6, q7, q8⟩ := q
  unfold timecode
  rw [p1, p2, p3, p4, p5, p6, p7, p8, q1, q2, q3, q4, q6]
  simp only [bcd, List.length_cons, List.length_nil, Rat.natCast_add, Rat.natCast_mul]
  grind

/-- 12345678.1234 with the check 0x0900 is 12345678.12349. -/
theorem C112_not_timecode : timecode 0x12345678 0x12340900 = 1234567812349 / 100000 := by decide +kernel

/-- Eight of the sixteen bits of the check are looked at, and the fraction is not checked. -/
theorem C112_not_check (w4 k : Nat) (hk : k < 16) : crcf (w4 - w4 % 2 ^ 16 + (w4 % 2 ^ 4) + (w4 / 2 ^ 8 % 2 ^ 4) * 2 ^ 8 + k * 2 ^ 4) = crcf w4 := by
  unfold crcf
  simp only [low16, bits4]
  generalize hv : w4 - w4 % 2 ^ 16 + (w4 % 2 ^ 4) + (w4 / 2 ^ 8 % 2 ^ 4) * 2 ^ 8 + k * 2 ^ 4 = v
  rw [low4, low4]
  have a1 : v % 2 ^ 16 % 2 ^ 4 = w4 % 2 ^ 16 % 2 ^ 4 := by omega
  have a2 : v % 2 ^ 16 / 2 ^ 8 % 2 ^ 4 = w4 % 2 ^ 16 / 2 ^ 8 % 2 ^ 4 := by omega
  rw [a1, a2]

/-- The check is no cyclic one, as those are linear. -/
theorem C112_not_linear : crcc (1 ^^^ 4) 48 0o40003 16 ≠ crcc 1 48 0o40003 16 ^^^ crcc 4 48 0o40003 16 := by decide +kernel

/-! ## GUPPI headers -/

theorem ascii_append (a b : List Nat) : ascii (a ++ b) = ascii a ++ ascii b := by simp [ascii]

theorem contains_left (p a b : Text) : Ionex.contains p b = true → Ionex.contains p (a ++ b) = true := by
  intro h
  induction a with
  | nil => exact h
  | cons c a ih =>
    rw [List.cons_append]
    unfold Ionex.contains
    simp [ih]

/-- A file with a header in its first 16 kB has one. -/
theorem C112_guppi (pre post : List Nat) (h : pre.length + 8 ≤ 16384) : hasGuppi (pre ++ "TELESCOP".toList.map Char.toNat ++ post) = true := by
  unfold hasGuppi
  have hl : ("TELESCOP".toList.map Char.toNat).length = 8 := by decide +kernel
  have e : (pre ++ "TELESCOP".toList.map Char.toNat ++ post).take 16384
      = pre ++ ("TELESCOP".toList.map Char.toNat ++ post.take (16384 - (pre.length + 8))) := by
    rw [List.take_append, List.take_of_length_le (by rw [List.length_append, hl]; omega), List.length_append, hl, List.append_assoc]
  rw [e, ascii_append, ascii_append]
  have ha : ascii ("TELESCOP".toList.map Char.toNat) = "TELESCOP".toList := by decide +kernel
  rw [ha, contains_left]
  · rfl
  · generalize ascii (post.take _) = z
    have hp : "TELESCOP".toList = ['T', 'E', 'L', 'E', 'S', 'C', 'O', 'P'] := by decide +kernel
    rw [hp]
    show Ionex.contains _ ('T' :: _) = true
    unfold Ionex.contains
    simp [List.isPrefixOf]

/-- Samples can be taken for a header: bytes that are not ASCII are left out first, and three letters are enough. -/
theorem C112_not_guppi : hasGuppi [0x45, 0xFF, 0x4E, 0x80, 0x44] = true := by decide +kernel

end Verif.Vdif

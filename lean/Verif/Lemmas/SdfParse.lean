import Verif.Model.SdfParse
import Verif.Props.Sdf
import Verif.Props.Words
/-!
# Lemmas for rendering and parsing session definition files
-/
namespace Verif.SdfParse

open Verif.Sdf

theorem parseLines_append (s : PState) (a b : List Line) :
    parseLines s (a ++ b) = (parseLines s a).bind (fun s' => parseLines s' b) := by
  induction a generalizing s with
  | nil => rfl
  | cons x a ih =>
    simp only [List.cons_append, parseLines]
    cases parseLine s x with
    | none => rfl
    | some s' => exact ih s'

/-- `b` where it is set, else `a`. -/
def orElse (a b : Int) : Int := if b = -1 then a else b

/-- Entry by entry. -/
def merge (p l : List Int) : List Int := List.zipWith orElse p l

def orElse2 (a b : Int × Int) : Int × Int := (orElse a.1 b.1, orElse a.2 b.2)

def mergeFee (p l : List (Int × Int)) : List (Int × Int) := List.zipWith orElse2 p l

theorem set_append {α : Type} (pre : List α) (a : α) (p : List α) (v : α) :
    (pre ++ a :: p).set pre.length v = pre ++ v :: p := by
  induction pre with
  | nil => rfl
  | cons x pre ih => simp

theorem modify_append {α : Type} (pre : List α) (a : α) (p : List α) (f : α → α) :
    (pre ++ a :: p).modify pre.length f = pre ++ f a :: p := by
  induction pre with
  | nil => rfl
  | cons x pre ih => simp [ih]

theorem arr_fold (l : List Int) : ∀ (pre p : List Int), p.length = l.length →
    (((l.zipIdx pre.length).filter (fun q => q.1 != -1)).map (fun q => (q.2 + 1, q.1))).foldl
      (fun a q => setArr a q.1 q.2) (pre ++ p) = pre ++ merge p l := by
  induction l with
  | nil =>
    intro pre p h
    have : p = [] := List.length_eq_zero_iff.mp (by simpa using h)
    subst this
    simp [merge]
  | cons x l ih =>
    intro pre p h
    cases p with
    | nil => simp at h
    | cons a p =>
      have hl : p.length = l.length := by simpa using h
      rw [List.zipIdx_cons]
      by_cases hx : x = -1
      · rw [List.filter_cons_of_neg (by simp [hx])]
        have := ih (pre ++ [a]) p hl
        rw [List.length_append, List.length_singleton] at this
        rw [show pre ++ a :: p = pre ++ [a] ++ p by simp, this]
        simp [merge, orElse, hx]
      · rw [List.filter_cons_of_pos (by simp [hx])]
        have e : setArr (pre ++ a :: p) (pre.length + 1) x = pre ++ x :: p := by
          unfold setArr
          rw [if_neg (by omega), Nat.add_sub_cancel, set_append]
        simp only [List.map_cons, List.foldl_cons, e]
        have := ih (pre ++ [x]) p hl
        rw [List.length_append, List.length_singleton] at this
        rw [show pre ++ x :: p = pre ++ [x] ++ p by simp, this]
        simp [merge, orElse, hx]

theorem merge_const (p l : List Int) (v : Int) (h : p.length = l.length) (hv : ∀ x ∈ l, x = v) :
    merge p l = if v = -1 then p else p.map (fun _ => v) := by
  unfold merge
  induction l generalizing p with
  | nil =>
    have : p = [] := List.length_eq_zero_iff.mp (by simpa using h)
    subst this; simp
  | cons x l ih =>
    cases p with
    | nil => simp at h
    | cons a p =>
      have hx : x = v := hv x (by simp)
      rw [List.zipWith_cons_cons, ih p (by simpa using h) (fun y hy => hv y (by simp [hy]))]
      subst hx
      by_cases h1 : x = -1 <;> simp [orElse, h1]

/-- Writing ASP settings and reading them over previous values. -/
theorem arr_roundtrip (p l : List Int) (h : p.length = l.length) :
    (arrLines l).foldl (fun a q => setArr a q.1 q.2) p = merge p l := by
  unfold arrLines
  split
  · rename_i hall
    have hv : ∀ x ∈ l, x = l.headD (-1) := by
      intro x hx
      have := List.all_eq_true.mp hall x hx
      simpa using this
    rw [merge_const p l _ h hv]
    generalize l.headD (-1) = v
    by_cases hne : v = -1
    · simp [hne]
    · simp [hne, setArr]
  · exact arr_fold l [] p h

theorem fee_fold (l : List (Int × Int)) : ∀ (pre p : List (Int × Int)), p.length = l.length →
    ((l.zipIdx pre.length).flatMap (fun q =>
      (if q.1.1 ≠ -1 then [(q.2 + 1, 1, q.1.1)] else []) ++
      (if q.1.2 ≠ -1 then [(q.2 + 1, 2, q.1.2)] else []))).foldl
      (fun a (q : Nat × Nat × Int) => setFee a q.1 q.2.1 q.2.2) (pre ++ p) = pre ++ mergeFee p l := by
  induction l with
  | nil =>
    intro pre p h
    have : p = [] := List.length_eq_zero_iff.mp (by simpa using h)
    subst this
    simp [mergeFee]
  | cons x l ih =>
    intro pre p h
    cases p with
    | nil => simp at h
    | cons a p =>
      have hl : p.length = l.length := by simpa using h
      rw [List.zipIdx_cons, List.flatMap_cons, List.foldl_append]
      have key : (((if x.1 ≠ -1 then [(pre.length + 1, 1, x.1)] else []) ++
          (if x.2 ≠ -1 then [(pre.length + 1, 2, x.2)] else [])) : List (Nat × Nat × Int)).foldl
          (fun a (q : Nat × Nat × Int) => setFee a q.1 q.2.1 q.2.2) (pre ++ a :: p) =
          pre ++ orElse2 a x :: p := by
        by_cases h1 : x.1 = -1 <;> by_cases h2 : x.2 = -1 <;>
          simp [h1, h2, setFee, orElse2, orElse, modify_append, setPair]
      rw [key]
      have := ih (pre ++ [orElse2 a x]) p hl
      rw [List.length_append, List.length_singleton] at this
      rw [show pre ++ orElse2 a x :: p = pre ++ [orElse2 a x] ++ p by simp, this]
      simp [mergeFee]

/-- FEE settings that the file can hold: if all antennas have the same setting it is for both
polarisations or for none. -/
def FeeOk (l : List (Int × Int)) : Prop :=
  (∀ x ∈ l, x = l.headD (-1, -1)) → ((l.headD (-1, -1)).1 = -1 ↔ (l.headD (-1, -1)).2 = -1)

theorem mergeFee_const (p l : List (Int × Int)) (v : Int × Int) (h : p.length = l.length)
    (hv : ∀ x ∈ l, x = v) : mergeFee p l = p.map (fun a => orElse2 a v) := by
  unfold mergeFee
  induction l generalizing p with
  | nil =>
    have : p = [] := List.length_eq_zero_iff.mp (by simpa using h)
    subst this; simp
  | cons x l ih =>
    cases p with
    | nil => simp at h
    | cons a p =>
      have hx : x = v := hv x (by simp)
      rw [List.zipWith_cons_cons, ih p (by simpa using h) (fun y hy => hv y (by simp [hy])), hx]
      rfl

theorem fee_roundtrip (p l : List (Int × Int)) (h : p.length = l.length) (hok : FeeOk l) :
    (feeLines l).foldl (fun a (q : Nat × Nat × Int) => setFee a q.1 q.2.1 q.2.2) p = mergeFee p l := by
  unfold feeLines
  split
  · rename_i hall
    have hv : ∀ x ∈ l, x = l.headD (-1, -1) := by
      intro x hx
      have := List.all_eq_true.mp hall x hx
      simpa using this
    rw [mergeFee_const p l _ h hv]
    have hiff := hok hv
    generalize l.headD (-1, -1) = v at hiff ⊢
    split
    · rename_i hne
      simp [setFee, setPair, orElse2, orElse, hne.1, hne.2, Function.comp_def]
    · rename_i hne
      have h1 : v.1 = -1 := by
        by_cases h1 : v.1 = -1
        · exact h1
        · exact absurd ⟨h1, fun h2 => h1 (hiff.mpr h2)⟩ hne
      have h2 := hiff.mp h1
      simp [orElse2, orElse, h1, h2]
  · exact fee_fold l [] p h

/-! ### lines of one keyword -/

theorem parse_flt (xs : List (Nat × Int)) (s : PState) :
    parseLines s (xs.map (fun p => .flt p.1 p.2)) =
      some { s with t := { s.t with flt := xs.foldl (fun a q => setArr a q.1 q.2) s.t.flt } } := by
  induction xs generalizing s with
  | nil => rfl
  | cons x xs ih => simp only [List.map_cons, parseLines, parseLine, ih, List.foldl_cons]

theorem parse_at1 (xs : List (Nat × Int)) (s : PState) :
    parseLines s (xs.map (fun p => .at1 p.1 p.2)) =
      some { s with t := { s.t with at1 := xs.foldl (fun a q => setArr a q.1 q.2) s.t.at1 } } := by
  induction xs generalizing s with
  | nil => rfl
  | cons x xs ih => simp only [List.map_cons, parseLines, parseLine, ih, List.foldl_cons]

theorem parse_at2 (xs : List (Nat × Int)) (s : PState) :
    parseLines s (xs.map (fun p => .at2 p.1 p.2)) =
      some { s with t := { s.t with at2 := xs.foldl (fun a q => setArr a q.1 q.2) s.t.at2 } } := by
  induction xs generalizing s with
  | nil => rfl
  | cons x xs ih => simp only [List.map_cons, parseLines, parseLine, ih, List.foldl_cons]

theorem parse_at3 (xs : List (Nat × Int)) (s : PState) :
    parseLines s (xs.map (fun p => .at3 p.1 p.2)) =
      some { s with t := { s.t with at3 := xs.foldl (fun a q => setArr a q.1 q.2) s.t.at3 } } := by
  induction xs generalizing s with
  | nil => rfl
  | cons x xs ih => simp only [List.map_cons, parseLines, parseLine, ih, List.foldl_cons]

theorem parse_fee (xs : List (Nat × Nat × Int)) (s : PState) :
    parseLines s (xs.map (fun p => .fee p.1 p.2.1 p.2.2)) =
      some { s with t := { s.t with
        fee := xs.foldl (fun a (q : Nat × Nat × Int) => setFee a q.1 q.2.1 q.2.2) s.t.fee } } := by
  induction xs generalizing s with
  | nil => rfl
  | cons x xs ih => simp only [List.map_cons, parseLines, parseLine, ih, List.foldl_cons]

/-! ### steps -/

/-- The entry a new step starts from. -/
def baseOf (bs : List StepTemp) (id : Nat) : StepTemp :=
  let b := bs.getLast?.getD StepTemp.new
  { b with id := id }

theorem onStep_new (bs : List StepTemp) (id : Nat) (f : StepTemp → StepTemp)
    (h : ∀ x, bs.getLast? = some x → x.id ≠ id) : onStep bs id f = bs ++ [f (baseOf bs id)] := by
  unfold onStep baseOf
  cases hb : bs.getLast? with
  | none =>
    have : bs = [] := List.getLast?_eq_none_iff.mp hb
    subst this; rfl
  | some x =>
    simp only []
    rw [if_pos (h x hb)]
    rfl

theorem onStep_last (bs : List StepTemp) (x : StepTemp) (f : StepTemp → StepTemp) :
    onStep (bs ++ [x]) x.id f = bs ++ [f x] := by
  unfold onStep
  simp

/-- Same with the identifier given. -/
theorem onStep_last' (bs : List StepTemp) (x : StepTemp) (id : Nat) (f : StepTemp → StepTemp)
    (h : x.id = id) : onStep (bs ++ [x]) id f = bs ++ [f x] := by
  rw [← h]; exact onStep_last bs x f

theorem delays_fold (ds : List Int) : ∀ (pre p : List Int) (bs : List StepTemp) (t : Temp) (out : List Obs)
    (x : StepTemp), p.length = ds.length → x.delays = some (pre ++ p) →
    parseLines ⟨t, bs ++ [x], out⟩ ((ds.zipIdx pre.length).map (fun q => .delay x.id (q.2 + 1) q.1)) =
      some ⟨t, bs ++ [{ x with delays := some (pre ++ ds) }], out⟩ := by
  induction ds with
  | nil =>
    intro pre p bs t out x h hx
    have : p = [] := List.length_eq_zero_iff.mp (by simpa using h)
    subst this
    simp only [List.zipIdx_nil, List.map_nil, parseLines, ← hx]
  | cons d ds ih =>
    intro pre p bs t out x h hx
    cases p with
    | nil => simp at h
    | cons a p =>
      rw [List.zipIdx_cons, List.map_cons]
      simp only [parseLines, parseLine, onStep_last, setDelay, hx, Option.map_some, Nat.add_sub_cancel,
        set_append]
      have := ih (pre ++ [d]) p bs t out { x with delays := some (pre ++ d :: p) } (by simpa using h) (by simp)
      rw [List.length_append, List.length_singleton] at this
      rw [this]
      simp

theorem gains_fold (gs : List Gain) : ∀ (pre p : List Gain) (bs : List StepTemp) (t : Temp) (out : List Obs)
    (x : StepTemp), p.length = gs.length → x.gains = some (pre ++ p) →
    parseLines ⟨t, bs ++ [x], out⟩ ((gs.zipIdx pre.length).flatMap (fun q =>
      [.gains x.id (q.2 + 1) 1 1 q.1.a, .gains x.id (q.2 + 1) 1 2 q.1.b,
        .gains x.id (q.2 + 1) 2 1 q.1.c, .gains x.id (q.2 + 1) 2 2 q.1.d])) =
      some ⟨t, bs ++ [{ x with gains := some (pre ++ gs) }], out⟩ := by
  induction gs with
  | nil =>
    intro pre p bs t out x h hx
    have : p = [] := List.length_eq_zero_iff.mp (by simpa using h)
    subst this
    simp only [List.zipIdx_nil, List.flatMap_nil, parseLines, ← hx]
  | cons d gs ih =>
    intro pre p bs t out x h hx
    cases p with
    | nil => simp at h
    | cons a p =>
      rw [List.zipIdx_cons, List.flatMap_cons]
      simp only [List.cons_append, List.nil_append, parseLines, parseLine]
      have e1 : setGain (pre.length + 1) 1 1 d.a x = { x with gains := some (pre ++ { a with a := d.a } :: p) } := by
        simp [setGain, hx, modify_append, Gain.set]
      have e2 : setGain (pre.length + 1) 1 2 d.b { x with gains := some (pre ++ { a with a := d.a } :: p) } =
          { x with gains := some (pre ++ { a with a := d.a, b := d.b } :: p) } := by
        simp [setGain, modify_append, Gain.set]
      have e3 : setGain (pre.length + 1) 2 1 d.c { x with gains := some (pre ++ { a with a := d.a, b := d.b } :: p) } =
          { x with gains := some (pre ++ { a with a := d.a, b := d.b, c := d.c } :: p) } := by
        simp [setGain, modify_append, Gain.set]
      have e4 : setGain (pre.length + 1) 2 2 d.d { x with gains := some (pre ++ { a with a := d.a, b := d.b, c := d.c } :: p) } =
          { x with gains := some (pre ++ d :: p) } := by
        simp [setGain, modify_append, Gain.set]
      rw [onStep_last, e1, onStep_last' bs _ x.id _ (by rfl), e2, onStep_last' bs _ x.id _ (by rfl), e3,
        onStep_last' bs _ x.id _ (by rfl), e4]
      have := ih (pre ++ [d]) p bs t out { x with gains := some (pre ++ d :: p) } (by simpa using h) (by simp)
      rw [List.length_append, List.length_singleton] at this
      rw [this]
      simp

/-- The entry made from the lines of step `s` over the previous entry `b`. -/
def stepAfter (b : StepTemp) (id : Nat) (s : Step) : StepTemp :=
  match s.beam with
  | .simple => ⟨id, of9 (to9 s.c1), of9 (to9 s.c2), s.dur, s.freq1, s.freq2, false, b.delays, b.gains⟩
  | .highDr => ⟨id, of9 (to9 s.c1), of9 (to9 s.c2), s.dur, s.freq1, s.freq2, true, b.delays, b.gains⟩
  | .spec ds gs => ⟨id, of9 (to9 s.c1), of9 (to9 s.c2), s.dur, s.freq1, s.freq2, b.highDr, some ds, some gs⟩

/-- Custom delays and gains have the right lengths. -/
def BeamOk : Beam → Prop
  | .spec ds gs => ds.length = 2 * nstd ∧ gs.length = nstd
  | _ => True

theorem stepLines_parse (t : Temp) (bs : List StepTemp) (out : List Obs) (id : Nat) (s : Step)
    (hid : ∀ x, bs.getLast? = some x → x.id ≠ id) (hb : BeamOk s.beam) :
    parseLines ⟨t, bs, out⟩ (stepLines id s) =
      some ⟨t, bs ++ [stepAfter (bs.getLast?.getD StepTemp.new) id s], out⟩ := by
  unfold stepLines
  rw [parseLines_append]
  have h5 : parseLines ⟨t, bs, out⟩ [.stpC1 id (to9 s.c1), .stpC2 id (to9 s.c2), .stpT id s.dur,
      .stpF1 id s.freq1, .stpF2 id s.freq2] =
      some ⟨t, bs ++ [⟨id, of9 (to9 s.c1), of9 (to9 s.c2), s.dur, s.freq1, s.freq2,
        (bs.getLast?.getD StepTemp.new).highDr, (bs.getLast?.getD StepTemp.new).delays,
        (bs.getLast?.getD StepTemp.new).gains⟩], out⟩ := by
    simp only [parseLines, parseLine, onStep_new bs id _ hid]
    rw [onStep_last' bs _ id _ (by rfl), onStep_last' bs _ id _ (by rfl), onStep_last' bs _ id _ (by rfl),
      onStep_last' bs _ id _ (by rfl)]
    rfl
  rw [h5, Option.bind_some]
  unfold stepAfter
  generalize hbs : bs.getLast?.getD StepTemp.new = b
  cases hbeam : s.beam with
  | simple =>
    simp only [parseLines, parseLine]
    rw [onStep_last' bs _ id _ (by rfl)]
    rfl
  | highDr =>
    simp only [parseLines, parseLine]
    rw [onStep_last' bs _ id _ (by rfl)]
    rfl
  | spec ds gs =>
    rw [hbeam] at hb
    simp only
    rw [parseLines]
    simp only [parseLine]
    rw [onStep_last' bs _ id _ (by rfl), parseLines_append]
    simp only [setBeam]
    have hd := delays_fold ds [] (List.replicate (2 * nstd) 0) bs t out
      ⟨id, of9 (to9 s.c1), of9 (to9 s.c2), s.dur, s.freq1, s.freq2, b.highDr,
        some (List.replicate (2 * nstd) 0), some (List.replicate nstd ⟨0, 0, 0, 0⟩)⟩
      (by rw [List.length_replicate, hb.1]) rfl
    simp only [List.length_nil, List.nil_append] at hd
    rw [hd, Option.bind_some]
    have hg := gains_fold gs [] (List.replicate nstd ⟨0, 0, 0, 0⟩) bs t out
      ⟨id, of9 (to9 s.c1), of9 (to9 s.c2), s.dur, s.freq1, s.freq2, b.highDr,
        some ds, some (List.replicate nstd ⟨0, 0, 0, 0⟩)⟩
      (by rw [List.length_replicate, hb.2]) rfl
    simp only [List.length_nil, List.nil_append] at hg
    rw [hg]

/-- The entries made from all steps. -/
def stepsAfter (b : StepTemp) (k : Nat) : List Step → List StepTemp
  | [] => []
  | s :: l => stepAfter b (k + 1) s :: stepsAfter (stepAfter b (k + 1) s) (k + 1) l

theorem stepAfter_id (b : StepTemp) (id : Nat) (s : Step) : (stepAfter b id s).id = id := by
  unfold stepAfter; split <;> rfl

theorem steps_parse (t : Temp) (out : List Obs) (ss : List Step) : ∀ (bs : List StepTemp) (k : Nat),
    (∀ x, bs.getLast? = some x → x.id ≤ k) → (∀ s ∈ ss, BeamOk s.beam) →
    parseLines ⟨t, bs, out⟩ ((ss.zipIdx k).flatMap (fun p => stepLines (p.2 + 1) p.1)) =
      some ⟨t, bs ++ stepsAfter (bs.getLast?.getD StepTemp.new) k ss, out⟩ := by
  induction ss with
  | nil => intro bs k _ _; simp [stepsAfter, parseLines]
  | cons s ss ih =>
    intro bs k hid hok
    rw [List.zipIdx_cons, List.flatMap_cons, parseLines_append,
      stepLines_parse t bs out (k + 1) s (fun x hx => by have := hid x hx; omega) (hok s (by simp)),
      Option.bind_some, ih _ _ _ (fun x hx => hok x (by simp [hx]))]
    · simp [stepsAfter]
    · intro x hx
      simp only [List.getLast?_append, List.getLast?_singleton, Option.some_or, Option.some.injEq] at hx
      rw [← hx, stepAfter_id]; omega

theorem viaFreq_id (w : Int) : viaFreq w = w := Words.C26_word_roundtrip w

theorem viaText_id (n : Nat) : viaText n = some n := by
  simp [viaText, C30_file]

end Verif.SdfParse

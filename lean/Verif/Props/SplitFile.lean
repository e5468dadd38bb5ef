import Verif.Model.SplitFile
import Verif.Lemmas.Bytes
/-!
# C19: multi-part files
-/
namespace Verif.SplitFile

/-! ## Specification: one file with the concatenated content -/

/-- Operations on a file object. -/
inductive Op
  | read (n : Nat)
  | seekSet (p : Nat)
  | seekCur (d : Int)
  | tell

/-- What an operation shows to the caller. -/
inductive Obs
  | data (b : Bytes)
  | at (p : Int)
  | done
  deriving DecidableEq

/-- A regular file: `none` is the exception for a negative position. -/
def refStep (whole : Bytes) (pos : Nat) : Op → Option (Obs × Nat)
  | .read n => some (.data ((whole.drop pos).take n), pos + ((whole.drop pos).take n).length)
  | .seekSet p => some (.done, p)
  | .seekCur d => if (pos : Int) + d < 0 then none else some (.done, (pos + d).toNat)
  | .tell => some (.at pos, pos)

def refRun (whole : Bytes) : Nat → List Op → Option (List Obs × Nat)
  | pos, [] => some ([], pos)
  | pos, op :: l => do
    let (o, p) ← refStep whole pos op
    let (os, q) ← refRun whole p l
    return (o :: os, q)

/-- The same operations on the multi-part file. -/
def step (parts : List Bytes) (st : State) : Op → Option (Obs × State)
  | .read n => some (.data (read parts st n).1, (read parts st n).2)
  | .seekSet p => if (seek parts st p 0).1 then some (.done, (seek parts st p 0).2) else none
  | .seekCur d => if (seek parts st d 1).1 then some (.done, (seek parts st d 1).2) else none
  | .tell => some (.at (tell st), st)

def run (parts : List Bytes) : State → List Op → Option (List Obs × State)
  | st, [] => some ([], st)
  | st, op :: l => do
    let (o, p) ← step parts st op
    let (os, q) ← run parts p l
    return (o :: os, q)

/-- States in which the part, the position in the part and the overall position fit together. -/
def Wf (parts : List Bytes) (st : State) : Prop :=
  ∃ k, ∃ h : k < parts.length, st.idx = k ∧ st.pos = offset parts k + st.fpos ∧
    (k + 1 < parts.length → st.fpos ≤ parts[k].length)

/-! ## Proofs -/

theorem offset_zero (parts : List Bytes) : offset parts 0 = 0 := by simp [offset]

theorem offset_succ (parts : List Bytes) (k : Nat) (h : k < parts.length) :
    offset parts (k + 1) = offset parts k + parts[k].length := by
  unfold offset
  rw [List.take_succ_eq_append_getElem h, List.map_append, List.sum_append]
  simp

theorem offset_mono (parts : List Bytes) (a b : Nat) (h : a ≤ b) : offset parts a ≤ offset parts b := by
  induction b with
  | zero => have : a = 0 := by omega
            subst this; exact Nat.le_refl _
  | succ b ih =>
    rcases Nat.lt_or_ge a (b + 1) with h1 | h1
    · refine Nat.le_trans (ih (by omega)) ?_
      rcases Nat.lt_or_ge b parts.length with hb | hb
      · rw [offset_succ parts b hb]; omega
      · unfold offset
        rw [List.take_of_length_le hb, List.take_of_length_le (by omega)]
        exact Nat.le_refl _
    · have : a = b + 1 := by omega
      subst this; exact Nat.le_refl _

theorem take_flatten_length (parts : List Bytes) (k : Nat) :
    (parts.take k).flatten.length = offset parts k := by
  unfold offset; rw [List.length_flatten]

theorem total_eq (parts : List Bytes) : total parts = parts.flatten.length := by
  unfold total; rw [List.length_flatten]

/-- The rest of the whole file, seen from part `k`. -/
theorem drop_whole (parts : List Bytes) (k j : Nat) (h : k < parts.length) (hj : j ≤ parts[k].length) :
    parts.flatten.drop (offset parts k + j) = parts[k].drop j ++ (parts.drop (k + 1)).flatten := by
  have e : parts.flatten = (parts.take k).flatten ++ (parts[k] ++ (parts.drop (k + 1)).flatten) := by
    rw [← List.flatten_cons, ← List.flatten_append, ← List.drop_eq_getElem_cons h,
      List.take_append_drop]
  rw [e, ← take_flatten_length, List.drop_append, List.drop_of_length_le (by omega), List.nil_append,
    Nat.add_sub_cancel_left, List.drop_append_of_le_length hj]

theorem pyIdx_nat (n k : Nat) : pyIdx n k = k := by
  unfold pyIdx
  rw [if_neg (by omega)]; omega

theorem current_eq (parts : List Bytes) (st : State) (k : Nat) (h : k < parts.length)
    (hi : st.idx = k) : current parts st = parts[k] := by
  unfold current
  rw [hi, pyIdx_nat, List.getD_eq_getElem?_getD, List.getElem?_eq_getElem h]
  rfl

theorem wf_init (parts : List Bytes) (h : 0 < parts.length) : Wf parts (init parts) := by
  refine ⟨0, h, rfl, ?_, ?_⟩
  · simp only [init, openPart]
    rw [show (0 : Int) = ((0 : Nat) : Int) from rfl, pyIdx_nat]; rfl
  · intro _; simp [init, openPart]

/-- The next part, if there is one. -/
def nextPart (parts : List Bytes) (k : Nat) : Bytes := parts.getD (k + 1) []

/-- What a read returns, exactly: at most the rest of the open part and the next part. -/
theorem C19_read_exact (parts : List Bytes) (st : State) (k : Nat) (h : k < parts.length)
    (hi : st.idx = k) (hp : st.pos = offset parts k + st.fpos)
    (hf : k + 1 < parts.length → st.fpos ≤ parts[k].length) (size : Nat) :
    (read parts st size).1 = (parts[k].drop st.fpos ++ nextPart parts k).take size ∧
    (read parts st size).2.pos = st.pos + (read parts st size).1.length ∧
    Wf parts (read parts st size).2 := by
  have hc := current_eq parts st k h hi
  unfold read readPart
  simp only [hc]
  by_cases hk : k + 1 < parts.length
  · have hle := hf hk
    have hnp : nextPart parts k = parts[k + 1] := by
      unfold nextPart
      rw [List.getD_eq_getElem?_getD, List.getElem?_eq_getElem hk]; rfl
    by_cases hs : (readAt parts[k] st.fpos size).length < size
    · rw [if_pos ⟨hs, by rw [hi]; omega⟩]
      have hall : readAt parts[k] st.fpos size = parts[k].drop st.fpos := by
        unfold readAt at hs ⊢
        rw [List.length_take] at hs
        rw [List.take_of_length_le (by omega)]
      have hlen : (readAt parts[k] st.fpos size).length = parts[k].length - st.fpos := by
        rw [hall, List.length_drop]
      have hon : openNext parts ⟨st.idx, st.fpos + (readAt parts[k] st.fpos size).length,
          st.pos + (readAt parts[k] st.fpos size).length⟩ =
          ⟨((k + 1 : Nat) : Int), 0, offset parts (k + 1)⟩ := by
        unfold openNext openPart
        simp only [hi]
        rw [show min ((k : Int) + 1) ((parts.length : Int) - 1) = ((k + 1 : Nat) : Int) by omega,
          pyIdx_nat]
      have hc2 := current_eq parts ⟨((k + 1 : Nat) : Int), 0, offset parts (k + 1)⟩ (k + 1) hk rfl
      simp only [hon, hc2]
      refine ⟨?_, ?_, ?_⟩
      · rw [hall, hnp]
        unfold readAt
        rw [List.drop_zero, List.take_append, List.take_of_length_le (l := List.drop st.fpos parts[k])
          (by rw [hall] at hs; omega)]
      · rw [offset_succ parts k h, hp, List.length_append, hlen]
        omega
      · refine ⟨k + 1, hk, rfl, ?_, ?_⟩
        · simp only; omega
        · intro _
          simp only [Nat.zero_add, readAt_length]
          omega
    · rw [if_neg (by omega)]
      refine ⟨?_, rfl, ⟨k, h, hi, ?_, ?_⟩⟩
      · have hsz : size ≤ (parts[k].drop st.fpos).length := by
          rw [readAt_length] at hs; rw [List.length_drop]; omega
        rw [List.take_append_of_le_length hsz]
        rfl
      · simp only; omega
      · intro _
        simp only [readAt_length]; omega
  · have hnp : nextPart parts k = [] := by
      unfold nextPart
      rw [List.getD_eq_getElem?_getD, List.getElem?_eq_none (by omega)]; rfl
    rw [if_neg (by rw [hi]; omega)]
    refine ⟨?_, rfl, ⟨k, h, hi, ?_, fun h' => absurd h' hk⟩⟩
    · rw [hnp, List.append_nil]; rfl
    · simp only; omega

theorem drop_flatten_next (parts : List Bytes) (k : Nat) :
    (parts.drop (k + 1)).flatten = nextPart parts k ++ (parts.drop (k + 2)).flatten := by
  unfold nextPart
  rcases Nat.lt_or_ge (k + 1) parts.length with h | h
  · rw [List.drop_eq_getElem_cons h, List.flatten_cons, List.getD_eq_getElem?_getD,
      List.getElem?_eq_getElem h]; rfl
  · rw [List.drop_of_length_le h, List.drop_of_length_le (by omega), List.getD_eq_getElem?_getD,
      List.getElem?_eq_none h]; rfl

/-- The rest of the whole file from a state. -/
theorem rest_eq (parts : List Bytes) (st : State) (k : Nat) (h : k < parts.length)
    (hp : st.pos = offset parts k + st.fpos)
    (hf : k + 1 < parts.length → st.fpos ≤ parts[k].length) :
    parts.flatten.drop st.pos.toNat =
      parts[k].drop st.fpos ++ nextPart parts k ++ (parts.drop (k + 2)).flatten := by
  have e : st.pos.toNat = offset parts k + st.fpos := by omega
  rw [e, List.append_assoc, ← drop_flatten_next]
  by_cases hj : st.fpos ≤ parts[k].length
  · exact drop_whole parts k st.fpos h hj
  · have hk : ¬ k + 1 < parts.length := fun h' => hj (hf h')
    rw [List.drop_of_length_le (l := parts[k]) (by omega), List.drop_of_length_le (l := parts) (by omega)]
    rw [List.drop_of_length_le]
    · rfl
    · rw [← total_eq]
      have h1 : total parts = offset parts parts.length := by
        unfold total offset; rw [List.take_length]
      have h2 : parts.length = k + 1 := by omega
      rw [h1, h2, offset_succ parts k h]; omega

/-- No byte is lost, repeated or reordered: whatever a read returns is the next part of the whole
file, and the position moves by exactly that much. -/
theorem C19_no_loss (parts : List Bytes) (st : State) (hw : Wf parts st) (size : Nat) :
    (read parts st size).1 = (parts.flatten.drop st.pos.toNat).take (read parts st size).1.length ∧
    (read parts st size).1.length ≤ size ∧
    tell (read parts st size).2 = tell st + (read parts st size).1.length ∧
    Wf parts (read parts st size).2 := by
  obtain ⟨k, h, hi, hp, hf⟩ := hw
  obtain ⟨h1, h2, h3⟩ := C19_read_exact parts st k h hi hp hf size
  refine ⟨?_, ?_, h2, h3⟩
  · rw [rest_eq parts st k h hp hf]
    have hle : (read parts st size).1.length ≤ (parts[k].drop st.fpos ++ nextPart parts k).length := by
      rw [h1, List.length_take]; omega
    rw [List.take_append_of_le_length hle]
    rw [h1, List.length_take, ← List.take_take, List.take_length]
  · rw [h1, List.length_take]; omega

/-- Missing from the full property: reads that reach beyond the next part.  A read is the one of the
whole file when it ends in the open part or the next one, or no further part follows. -/
theorem C19_read_partial (parts : List Bytes) (st : State) (k : Nat) (h : k < parts.length)
    (hi : st.idx = k) (hp : st.pos = offset parts k + st.fpos)
    (hf : k + 1 < parts.length → st.fpos ≤ parts[k].length) (size : Nat)
    (hs : parts.length ≤ k + 2 ∨ size + st.fpos ≤ parts[k].length + (nextPart parts k).length) :
    (read parts st size).1 = (parts.flatten.drop st.pos.toNat).take size := by
  obtain ⟨h1, _, _⟩ := C19_read_exact parts st k h hi hp hf size
  rw [h1, rest_eq parts st k h hp hf]
  rcases hs with hs | hs
  · rw [List.drop_of_length_le (l := parts) hs]; simp
  · have : size ≤ (parts[k].drop st.fpos ++ nextPart parts k).length := by
      rw [List.length_append, List.length_drop]
      omega
    rw [List.take_append_of_le_length (l₁ := parts[k].drop st.fpos ++ nextPart parts k) this]

/-- Number of offsets not above a position: the parts whose beginning is not after it. -/
theorem bisect_spec (parts : List Bytes) (p : Nat) (h : 0 < parts.length) :
    ∃ k, ∃ _ : k < parts.length, bisect parts p = k + 1 ∧ offset parts k ≤ p ∧
      (k + 1 < parts.length → p < offset parts (k + 1)) := by
  have gen : ∀ n, n ≤ parts.length → 0 < n → ∃ k, k < n ∧
      ((List.range n).filter (fun i => decide ((offset parts i : Int) ≤ p))).length = k + 1 ∧
      offset parts k ≤ p ∧ (k + 1 < n → p < offset parts (k + 1)) := by
    intro n
    induction n with
    | zero => intro _ h; omega
    | succ n ih =>
      intro hn _
      rw [List.range_succ, List.filter_append, List.length_append]
      rcases Nat.eq_zero_or_pos n with hz | hz
      · subst hz
        exact ⟨0, by omega, by simp [offset_zero], by simp [offset_zero], by omega⟩
      · obtain ⟨k, h1, h2, h3, h4⟩ := ih (by omega) hz
        by_cases hle : offset parts n ≤ p
        · have hk : k + 1 = n := by
            rcases Nat.lt_or_ge (k + 1) n with hlt | hge
            · have := offset_mono parts (k + 1) n (by omega)
              have := h4 hlt
              omega
            · omega
          refine ⟨n, by omega, ?_, hle, by omega⟩
          have : decide ((offset parts n : Int) ≤ (p : Int)) = true := by simp; omega
          simp only [List.filter_cons, this, ↓reduceIte, List.filter_nil, List.length_cons,
            List.length_nil]
          omega
        · refine ⟨k, by omega, ?_, h3, ?_⟩
          · have : decide ((offset parts n : Int) ≤ (p : Int)) = false := by simp; omega
            simp only [List.filter_cons, this, List.filter_nil]
            simpa using h2
          · intro _
            rcases Nat.lt_or_ge (k + 1) n with hlt | hge
            · exact h4 hlt
            · have : k + 1 = n := by omega
              rw [this]; omega
  obtain ⟨k, h1, h2, h3, h4⟩ := gen parts.length (Nat.le_refl _) h
  exact ⟨k, h1, h2, h3, h4⟩

theorem seekSet_spec (parts : List Bytes) (h : 0 < parts.length) (p : Nat) :
    (seekSet parts p).1 = true ∧ (seekSet parts p).2.pos = p ∧ Wf parts (seekSet parts p).2 := by
  obtain ⟨k, hk, h1, h2, h3⟩ := bisect_spec parts p h
  have ho : openPart parts ((bisect parts p : Int) - 1) = ⟨(k : Int), 0, offset parts k⟩ := by
    unfold openPart
    rw [h1, show ((k + 1 : Nat) : Int) - 1 = (k : Int) by omega, pyIdx_nat]
  unfold seekSet
  simp only [ho]
  rw [if_neg (by omega)]
  refine ⟨rfl, ?_, ?_⟩
  · simp only; omega
  · refine ⟨k, hk, rfl, ?_, ?_⟩
    · simp only; omega
    · intro hlt
      have := h3 hlt
      rw [offset_succ parts k hk] at this
      simp only; omega

/-- Absolute and relative seeks to a position that is not negative always succeed, and `tell` then
reports that position, beyond the end as well. -/
theorem C19_seek (parts : List Bytes) (h : 0 < parts.length) (st : State) (p : Nat) :
    (seek parts st p 0).1 = true ∧ tell (seek parts st p 0).2 = p ∧ Wf parts (seek parts st p 0).2 ∧
    ∀ d : Int, tell st + d = p →
      (seek parts st d 1).1 = true ∧ tell (seek parts st d 1).2 = p ∧ Wf parts (seek parts st d 1).2 := by
  have hs := seekSet_spec parts h p
  refine ⟨hs.1, hs.2.1, hs.2.2, ?_⟩
  intro d hd
  unfold tell at hd
  unfold seek
  simp only [Nat.one_ne_zero, ↓reduceIte, hd]
  exact ⟨hs.1, hs.2.1, hs.2.2⟩

/-- Missing from the full property: parts shorter than the requests, and seeks from the end.  When
every part but the last is at least as long as the longest read, every sequence of reads, seeks and
position queries shows exactly what one regular file shows. -/
theorem C19_refines_partial (parts : List Bytes) (hne : 0 < parts.length) (L : Nat)
    (hL : ∀ k, (h : k < parts.length) → k + 1 < parts.length → L ≤ parts[k].length)
    (ops : List Op) (hops : ∀ op ∈ ops, ∀ n, op = .read n → n ≤ L) (st : State) (hw : Wf parts st)
    (os : List Obs) (q : Nat) (href : refRun parts.flatten st.pos.toNat ops = some (os, q)) :
    ∃ st', run parts st ops = some (os, st') ∧ tell st' = q ∧ Wf parts st' := by
  induction ops generalizing st os q with
  | nil =>
    simp only [refRun, Option.some.injEq, Prod.mk.injEq] at href
    obtain ⟨rfl, rfl⟩ := href
    refine ⟨st, rfl, ?_, hw⟩
    obtain ⟨k, h, hi, hp, hf⟩ := hw
    unfold tell; omega
  | cons op ops ih =>
    have hpos : 0 ≤ st.pos := by obtain ⟨k, h, hi, hp, hf⟩ := hw; omega
    have hstep : ∀ o p, refStep parts.flatten st.pos.toNat op = some (o, p) →
        ∃ st', step parts st op = some (o, st') ∧ st'.pos.toNat = p ∧ Wf parts st' := by
      intro o p hr
      cases op with
      | read n =>
        have hn := hops (.read n) (by simp) n rfl
        simp only [refStep, Option.some.injEq, Prod.mk.injEq] at hr
        obtain ⟨rfl, rfl⟩ := hr
        have hnl := C19_no_loss parts st hw n
        have hrd : (read parts st n).1 = (parts.flatten.drop st.pos.toNat).take n := by
          obtain ⟨k, h, hi, hp, hf⟩ := hw
          apply C19_read_partial parts st k h hi hp hf
          rcases Nat.lt_or_ge (k + 2) parts.length with hlt | hge
          · right
            have h1 := hL (k + 1) (by omega) (by omega)
            have hnp : nextPart parts k = parts[k + 1] := by
              unfold nextPart
              rw [List.getD_eq_getElem?_getD, List.getElem?_eq_getElem (by omega)]; rfl
            rw [hnp]
            have := hf (by omega)
            omega
          · left; exact hge
        refine ⟨(read parts st n).2, ?_, ?_, hnl.2.2.2⟩
        · simp only [step, hrd]
        · have := hnl.2.2.1
          unfold tell at this
          rw [this, hrd]; omega
      | seekSet p' =>
        simp only [refStep, Option.some.injEq, Prod.mk.injEq] at hr
        obtain ⟨rfl, rfl⟩ := hr
        obtain ⟨h1, h2, h3, _⟩ := C19_seek parts hne st p'
        refine ⟨_, by simp only [step, h1, ↓reduceIte], ?_, h3⟩
        unfold tell at h2; omega
      | seekCur d =>
        simp only [refStep] at hr
        split at hr
        · simp at hr
        · simp only [Option.some.injEq, Prod.mk.injEq] at hr
          obtain ⟨rfl, rfl⟩ := hr
          obtain ⟨_, _, _, h4⟩ := C19_seek parts hne st ((st.pos.toNat : Int) + d).toNat
          obtain ⟨h1, h2, h3⟩ := h4 d (by unfold tell; omega)
          refine ⟨_, by simp only [step, h1, ↓reduceIte], ?_, h3⟩
          unfold tell at h2; omega
      | tell =>
        simp only [refStep, Option.some.injEq, Prod.mk.injEq] at hr
        obtain ⟨rfl, rfl⟩ := hr
        refine ⟨st, ?_, rfl, hw⟩
        simp only [step, tell, Option.some.injEq, Prod.mk.injEq, and_true]
        congr 1; omega
    unfold refRun at href
    cases hr : refStep parts.flatten st.pos.toNat op with
    | none => rw [hr] at href; simp at href
    | some op1 =>
      obtain ⟨o, p⟩ := op1
      rw [hr] at href
      obtain ⟨st1, hs1, hs2, hs3⟩ := hstep o p hr
      cases hr2 : refRun parts.flatten p ops with
      | none => simp [hr2] at href
      | some r2 =>
        obtain ⟨os2, q2⟩ := r2
        simp [hr2] at href
        obtain ⟨rfl, rfl⟩ := href
        obtain ⟨st', h1, h2, h3⟩ := ih (fun op h => hops op (by simp [h])) st1 hs3 os2 q2
          (by rw [hs2]; exact hr2)
        refine ⟨st', ?_, h2, h3⟩
        simp [run, hs1, h1]

/-- With no empty part, a read of at least one byte returns nothing only at the end of the whole
file. -/
theorem C19_eof (parts : List Bytes) (hne : ∀ b ∈ parts, b ≠ []) (st : State) (hw : Wf parts st)
    (size : Nat) (hs : 0 < size) (he : (read parts st size).1 = []) :
    (total parts : Int) ≤ tell st := by
  obtain ⟨k, h, hi, hp, hf⟩ := hw
  obtain ⟨h1, _, _⟩ := C19_read_exact parts st k h hi hp hf size
  rw [he] at h1
  have h2 : (parts[k].drop st.fpos ++ nextPart parts k) = [] := by
    cases hl : parts[k].drop st.fpos ++ nextPart parts k with
    | nil => rfl
    | cons a l => rw [hl] at h1; cases size with
      | zero => omega
      | succ s => simp at h1
  rw [List.append_eq_nil_iff] at h2
  have hk : ¬ k + 1 < parts.length := by
    intro hlt
    have : nextPart parts k = parts[k + 1] := by
      unfold nextPart
      rw [List.getD_eq_getElem?_getD, List.getElem?_eq_getElem hlt]; rfl
    rw [this] at h2
    exact hne _ (List.getElem_mem hlt) h2.2
  have h3 : parts[k].length ≤ st.fpos := by
    have := congrArg List.length h2.1
    rw [List.length_drop] at this
    simp only [List.length_nil] at this; omega
  have h4 : total parts = offset parts (k + 1) := by
    unfold total offset; rw [List.take_of_length_le (by omega)]
  rw [h4, offset_succ parts k h]
  unfold tell; omega

/-! ## The property fails -/

/-- Three short parts: one read of three bytes returns two. -/
theorem C19_three_parts : (read [[1], [2], [3]] (init [[1], [2], [3]]) 3).1 = [1, 2] := by decide

/-- An empty part in the middle looks like the end of the file. -/
theorem C19_empty_part : (read [[1], [], [3]] (read [[1], [], [3]] (init [[1], [], [3]]) 1).2 1).1 = [] := by
  decide

/-- Seeks from the end go the wrong way: `seek(p, 2)` lands at `size - p`, for every `p` up to the
size, where a regular file lands at `size + p`. -/
theorem C19_seek_end (parts : List Bytes) (h : 0 < parts.length) (st : State) (p : Nat)
    (hp : p ≤ total parts) : (seek parts st p 2).1 = true ∧
      tell (seek parts st p 2).2 = (total parts : Int) - p := by
  have hs := seekSet_spec parts h (total parts - p)
  unfold seek
  rw [if_neg (by decide), if_neg (by decide)]
  unfold tell
  rw [show (total parts : Int) - p = ((total parts - p : Nat) : Int) by omega]
  exact ⟨hs.1, hs.2.1⟩

/-- A seek to a negative position fails as for a regular file, but loses the position. -/
theorem C19_negative_seek : (seek [[1], [2]] (init [[1], [2]]) (-1) 0).1 = false ∧
    tell (init [[1], [2]]) = 0 ∧ tell (seek [[1], [2]] (init [[1], [2]]) (-1) 0).2 = 1 := by decide

/-- Parts and operations that meet the hypotheses of `C19_refines_partial`. -/
example : ∃ st', run [[1, 2, 3], [4, 5, 6], [7]] (init [[1, 2, 3], [4, 5, 6], [7]])
      [.read 2, .read 3, .seekCur (-1), .tell, .read 3] =
        some ([.data [1, 2], .data [3, 4, 5], .done, .at 4, .data [5, 6, 7]], st') ∧ tell st' = 7 := by
  obtain ⟨st', h1, h2, _⟩ := C19_refines_partial [[1, 2, 3], [4, 5, 6], [7]] (by decide) 3
    (by
      intro k h hk
      have : k = 0 ∨ k = 1 := by simp only [List.length_cons, List.length_nil] at hk; omega
      rcases this with rfl | rfl <;> simp)
    [.read 2, .read 3, .seekCur (-1), .tell, .read 3]
    (by
      intro op hop n hn
      subst hn
      simp only [List.mem_cons, Op.read.injEq, reduceCtorEq, List.not_mem_nil, or_false, false_or] at hop
      omega)
    (init [[1, 2, 3], [4, 5, 6], [7]]) (wf_init _ (by decide))
    [.data [1, 2], .data [3, 4, 5], .done, .at 4, .data [5, 6, 7]] 7 (by decide)
  exact ⟨st', h1, h2⟩

end Verif.SplitFile

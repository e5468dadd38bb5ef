import Verif.Spec.LdpSpec
import Verif.Lemmas.PyNum
import Verif.Lemmas.Float64Mono
/-!
# C97: spectrometer files
-/
namespace Verif.LdpSpec

open Drspec Spec

/-! ## Frames in a file -/

theorem rec_length (k : Kind) (r : Rec) (h : k.Has r) : r.bytes.length = k.size := by
  have := (decodeHeader_wire r.1 h.ok r.2).2.2.2.1
  unfold Rec.bytes Kind.size
  rw [this, h.block]

theorem frame_rec (k : Kind) (r : Rec) (h : k.Has r) (pre post : Bytes) :
    frame (pre ++ (r.bytes ++ post)) pre.length = (.ok ⟨r.1, floats r.2⟩, pre.length + k.size) := by
  obtain ⟨st, e⟩ := C11_wire none r.1 h.ok r.2 pre post (by rw [h.block, h.fmt, h.n]; rfl)
  unfold frame
  unfold Rec.bytes
  rw [← List.append_assoc, e, h.block]
  simp only
  rw [Nat.add_assoc]
  rfl

theorem frame_end (f : Bytes) (p : Nat) (h : f.length ≤ p) : frame f p = (.error .eof, p) := by
  unfold frame Drspec.read readAt
  rw [List.drop_of_length_le h]
  rfl

theorem frame_short (f : Bytes) (p : Nat) (h : f.length < p + 76) (hp : p ≤ f.length) : frame f p = (.error .eof, f.length) := by
  have hl : (readAt f p headerSize).length = f.length - p := by
    unfold readAt headerSize
    rw [List.length_take, List.length_drop]
    omega
  unfold frame Drspec.read
  simp only [hl]
  rw [if_pos (by unfold headerSize; omega)]
  simp only [Prod.mk.injEq, true_and]
  omega

theorem frame_sync (f : Bytes) (p : Nat) (h : p + 76 ≤ f.length) (hm : leDec (slice f p 4) ≠ 0xC0DEC0DE) :
    frame f p = (.error .sync, p) := by
  have hl : (readAt f p headerSize).length = headerSize := by
    unfold readAt headerSize
    rw [List.length_take, List.length_drop]
    omega
  have hs : slice (readAt f p headerSize) 0 4 = slice f p 4 := by
    unfold slice readAt headerSize
    rw [List.drop_zero, List.take_take]
    rfl
  unfold frame Drspec.read
  simp only [hl, hs]
  rw [if_neg (by simp), if_pos (.inl hm)]
  simp only [Prod.mk.injEq, true_and]
  omega

theorem time_rec (r : Rec) : time ⟨r.1, floats r.2⟩ = r.time := rfl

theorem recorded_products (fmt : Nat) (h : fmt ∈ recorded) : Drspec.products fmt ≠ [] ∧ (Drspec.products fmt).length ≤ 8 := by
  revert fmt; decide

theorem transform_rec (k : Kind) (hk : k.Ok) (r : Rec) (h : k.Has r) : transformSize ⟨r.1, floats r.2⟩ = .ok k.n := by
  unfold transformSize
  have := (recorded_products _ hk.fmt).1
  have e : products r.1.fmt = Drspec.products k.fmt := by rw [h.fmt]; rfl
  simp only [e]
  split
  · contradiction
  · rw [h.n]

theorem tint_rec (k : Kind) (hk : k.Ok) (r : Rec) (h : k.Has r) : tint ⟨r.1, floats r.2⟩ = .ok k.tint := by
  unfold tint
  rw [transform_rec k hk r h]
  simp only
  rw [if_neg (by rw [h.dec]; exact hk.dec), h.nInts, h.dec]
  rfl

theorem describe_rec (k : Kind) (hk : k.Ok) (r : Rec) (h : k.Has r) (pre post : Bytes) :
    describe (pre ++ (r.bytes ++ post)) pre.length = .ok (k.desc (pre ++ (r.bytes ++ post)).length r) := by
  unfold describe
  rw [frame_rec k r h]
  simp only
  rw [transform_rec k hk r h, tint_rec k hk r h]
  simp only
  rw [Nat.add_sub_cancel_left, h.nInts]
  unfold Kind.desc
  rw [show products r.1.fmt = Drspec.products k.fmt by rw [h.fmt]; rfl]
  rfl

/-! ## Opening -/

/-- Bytes before the first frame in which no frame begins. -/
def NoMagic (junk f : Bytes) : Prop := ∀ p, p < junk.length → leDec (slice f p 4) ≠ 0xC0DEC0DE

theorem align_junk (k : Kind) (r : Rec) (h : k.Has r) (junk post : Bytes) (hj : NoMagic junk (junk ++ (r.bytes ++ post))) (n p : Nat)
    (hp : p ≤ junk.length) (hn : junk.length < p + n) :
    align (junk ++ (r.bytes ++ post)) n p = .ok (junk.length + k.size) := by
  have hl := rec_length k r h
  have hs : 76 ≤ k.size := by unfold Kind.size; omega
  induction n generalizing p with
  | zero => omega
  | succ n ih =>
    simp only [align]
    by_cases e : p = junk.length
    · subst e
      rw [frame_rec k r h]
    · rw [frame_sync _ p (by rw [List.length_append, List.length_append]; omega) (hj p (by omega))]
      exact ih (p + 1) (by omega) (by omega)

/-- Opening a file with something before the first of two or more frames: reading begins at the first frame. -/
theorem C97_open (k : Kind) (hk : k.Ok) (r1 r2 : Rec) (h1 : k.Has r1) (h2 : k.Has r2) (junk post : Bytes)
    (hj : NoMagic junk (junk ++ (r1.bytes ++ (r2.bytes ++ post)))) :
    start (junk ++ (r1.bytes ++ (r2.bytes ++ post))) =
      .ok ⟨junk.length, none, k.desc (junk ++ (r1.bytes ++ (r2.bytes ++ post))).length r1⟩ := by
  have hl := rec_length k r1 h1
  unfold start ready
  rw [align_junk k r1 h1 junk _ hj _ 0 (Nat.zero_le _) (by rw [List.length_append]; omega)]
  simp only
  have hf : frame (junk ++ (r1.bytes ++ (r2.bytes ++ post))) (junk.length + k.size) =
      (.ok ⟨r2.1, floats r2.2⟩, junk.length + k.size + k.size) := by
    have := frame_rec k r2 h2 (junk ++ r1.bytes) post
    rwa [List.length_append, hl, List.append_assoc] at this
  unfold frameSize
  rw [hf]
  simp only
  rw [Nat.add_sub_cancel_left, if_pos (by omega), Nat.add_sub_cancel]
  simp only
  rw [describe_rec k hk r1 h1]

theorem align_none (f : Bytes) (hf : NoMagic f f) (n p : Nat) : align f n p = .error .eof := by
  induction n generalizing p with
  | zero => rfl
  | succ n ih =>
    simp only [align]
    by_cases h1 : f.length ≤ p
    · rw [frame_end f p h1]
    · by_cases h2 : f.length < p + 76
      · rw [frame_short f p h2 (by omega)]
      · rw [frame_sync f p (by omega) (hf p (by omega))]
        exact ih _

/-- What holds no frame is not opened. -/
theorem C97_none (f : Bytes) (hf : NoMagic f f) : start f = .error .eof := by
  unfold start ready
  rw [align_none f hf]


/-- A file with one frame cannot be opened. -/
theorem C97_not_single (k : Kind) (r : Rec) (h : k.Has r) (junk : Bytes) (hj : NoMagic junk (junk ++ (r.bytes ++ []))) :
    start (junk ++ (r.bytes ++ [])) = .error .eof := by
  have hl := rec_length k r h
  unfold start ready
  rw [align_junk k r h junk _ hj _ 0 (Nat.zero_le _) (by rw [List.length_append]; omega)]
  simp only
  unfold frameSize
  rw [frame_end _ _ (by simp; omega)]
  rfl

/-- If the second frame is the larger one, opening fails or begins at the wrong place. -/
theorem C97_not_sized (k1 k2 : Kind) (r1 r2 : Rec) (h1 : k1.Has r1) (h2 : k2.Has r2) (junk post : Bytes)
    (hj : NoMagic junk (junk ++ (r1.bytes ++ (r2.bytes ++ post)))) (hs : k1.size < k2.size) :
    ready (junk ++ (r1.bytes ++ (r2.bytes ++ post))) 0 =
      if k2.size ≤ junk.length + k1.size then .ok (junk.length + k1.size - k2.size) else .error .seek := by
  have hl := rec_length k1 r1 h1
  unfold ready
  rw [align_junk k1 r1 h1 junk _ hj _ 0 (Nat.zero_le _) (by rw [List.length_append]; omega)]
  simp only
  have hf : frame (junk ++ (r1.bytes ++ (r2.bytes ++ post))) (junk.length + k1.size) =
      (.ok ⟨r2.1, floats r2.2⟩, junk.length + k1.size + k2.size) := by
    have := frame_rec k2 r2 h2 (junk ++ r1.bytes) post
    rwa [List.length_append, hl, List.append_assoc] at this
  unfold frameSize
  rw [hf]
  simp only
  rw [Nat.add_sub_cancel_left]

theorem bytes_length (k : Kind) (l : List Rec) (h : ∀ r ∈ l, k.Has r) : (bytes l).length = l.length * k.size := by
  induction l with
  | nil => simp [bytes]
  | cons r l ih =>
    have := ih fun x hx => h x (by simp [hx])
    unfold bytes at this ⊢
    rw [List.flatMap_cons, List.length_append, this, rec_length k r (h r (by simp)), List.length_cons, Nat.add_mul, Nat.one_mul, Nat.add_comm]

theorem size_pos (k : Kind) : 0 < k.size := by unfold Kind.size; omega

/-- The number of frames left is right at every frame. -/
theorem C97_remaining (k : Kind) (pre : Bytes) (l : List Rec) (h : ∀ r ∈ l, k.Has r) (tag : Option Int) (r : Rec) :
    remaining ⟨pre.length, tag, k.desc (pre ++ bytes l).length r⟩ = l.length := by
  unfold remaining Kind.desc
  simp only
  rw [List.length_append, bytes_length k l h]
  have hp := size_pos k
  rw [show (((pre.length + l.length * k.size : Nat) : Int) - (pre.length : Int)) = (l.length : Int) * (k.size : Int) by push_cast; omega,
    Int.mul_fdiv_cancel _ (by omega)]

/-- The number of frames of the description counts what is before them. -/
theorem C97_not_count (k : Kind) (junk : Bytes) (l : List Rec) (h : ∀ r ∈ l, k.Has r) (r : Rec) :
    (k.desc (junk ++ bytes l).length r).nframe = l.length + junk.length / k.size := by
  unfold Kind.desc
  simp only
  rw [List.length_append, bytes_length k l h, Nat.add_mul_div_right _ _ (size_pos k), Nat.add_comm]

/-! ## Rows -/

theorem mapM_of {α β γ : Type _} (l : List α) (a : α → γ) (g : γ → Option β) (v : α → β) (h : ∀ x ∈ l, g (a x) = some (v x)) :
    (l.map a).mapM g = some (l.map v) := by
  induction l with
  | nil => rfl
  | cons x l ih =>
    rw [List.map_cons, List.mapM_cons, h x (by simp), ih fun y hy => h y (by simp [hy])]
    rfl

theorem mapM_two {α β : Type _} (l l' : List α) (g : α → Option β) (v v' : List β) (h : l.mapM g = some v) (h' : l'.mapM g = some v') :
    (l ++ l').mapM g = some (v ++ v') := by
  rw [List.mapM_append, h, h']
  rfl

theorem rows_rec (k : Kind) (hk : k.Ok) (r : Rec) (h : k.Has r) (d : Desc) (hp : d.products = Drspec.products k.fmt) (hn : d.lfft = k.n) :
    rowsOf d ⟨r.1, floats r.2⟩ = some r.rows := by
  have key : ∀ t : Nat, (Drspec.products k.fmt).map (fun q => (q, t)) =
      (List.range (Drspec.products k.fmt).length).map fun j => ((Drspec.products k.fmt)[j]?.getD 0, t) := by
    intro t
    apply List.ext_getElem
    · simp
    · intro i h1 h2
      simp at h1
      simp [h1]
  unfold rowsOf
  rw [hp, key, key]
  have cell : ∀ (j t : Nat), j < (Drspec.products k.fmt).length →
      assign d.lfft (attr r.1 (floats r.2) ((Drspec.products k.fmt)[j]?.getD 0) t) =
        some ((List.range r.1.nFreqs).map fun i => some ((floats r.2)[place (Drspec.products r.1.fmt).length r.1.nFreqs t i j]?,
          r.1.nFreqs * (inputs r.1 ((Drspec.products r.1.fmt)[j]?.getD 0) t).min?.getD 0 % 2 ^ 32)) := by
    intro j t hj
    have hg : (Drspec.products r.1.fmt)[j]? = some ((Drspec.products k.fmt)[j]?.getD 0) := by
      rw [h.fmt, List.getElem?_eq_getElem hj]; rfl
    have hrec : r.1.fmt ∈ recorded := by rw [h.fmt]; exact hk.fmt
    by_cases hz : r.1.nFreqs = 0
    · exfalso
      apply hk.tint
      unfold Kind.tint
      rw [← h.n, hz]
      simp
    · obtain ⟨a, ha, hla, -⟩ := C11_products r.1 (floats r.2) hrec j _ hg t 0 (by omega)
      have hcell : ∀ i, i < r.1.nFreqs → a[i]? = some ((floats r.2)[place (Drspec.products r.1.fmt).length r.1.nFreqs t i j]?,
          r.1.nFreqs * (inputs r.1 ((Drspec.products k.fmt)[j]?.getD 0) t).min?.getD 0 % 2 ^ 32) := by
        intro i hi
        obtain ⟨a', ha', -, hc⟩ := C11_products r.1 (floats r.2) hrec j _ hg t i hi
        rw [ha] at ha'
        injection ha' with ha'
        rw [ha']; exact hc
      rw [ha]
      unfold assign
      simp only
      rw [if_pos (by rw [hla, hn, h.n])]
      congr 1
      apply List.ext_getElem?
      intro i
      by_cases hi : i < r.1.nFreqs
      · rw [List.getElem?_map, hcell i hi, List.getElem?_map, List.getElem?_range hi]
        simp only [Option.map_some]
        rw [hg]
        rfl
      · rw [List.getElem?_eq_none (by simp; omega), List.getElem?_eq_none (by simp; omega)]
  have e := mapM_two _ _ _ _ _
    (mapM_of (List.range (Drspec.products k.fmt).length) (fun j => ((Drspec.products k.fmt)[j]?.getD 0, 0))
      (fun kt : Nat × Nat => assign d.lfft (attr r.1 (floats r.2) kt.1 kt.2)) _ fun j hj => cell j 0 (List.mem_range.mp hj))
    (mapM_of (List.range (Drspec.products k.fmt).length) (fun j => ((Drspec.products k.fmt)[j]?.getD 0, 1))
      (fun kt : Nat × Nat => assign d.lfft (attr r.1 (floats r.2) kt.1 kt.2)) _ fun j hj => cell j 1 (List.mem_range.mp hj))
  refine Eq.trans e ?_
  unfold Rec.rows
  rw [h.fmt]
  simp

/-! ## Reading -/

/-- The time of the last of some frames. -/
def lastTime (t : Int) (l : List Rec) : Int := (l.getLast?.map Rec.time).getD t

theorem lastTime_cons (t : Int) (r : Rec) (l : List Rec) : lastTime t (r :: l) = lastTime r.time l := by
  unfold lastTime
  cases l with
  | nil => rfl
  | cons x l => rw [List.getLast?_cons_cons]; simp [List.getLast?_cons]

theorem loop_spec (k : Kind) (hk : k.Ok) (ignore : Bool) (d : Desc) (hp : d.products = Drspec.products k.fmt) (hn : d.lfft = k.n) (ht : d.tint = k.tint)
    (l : List Rec) (hl : ∀ r ∈ l, k.Has r) (pre : Bytes) (n : Nat) (tag : Int) (hs : ignore = true ∨ Steady k.tint tag (l.take n)) (g : Got) :
    loop (pre ++ bytes l) ignore d n pre.length tag g =
      (.ok ⟨(g.first <|> (l.take n).head?.map Rec.time), g.rows ++ (l.take n).map Rec.rows⟩, pre.length + (l.take n).length * k.size,
        lastTime tag (l.take n)) := by
  induction n generalizing l pre tag g with
  | zero => simp [loop, lastTime]
  | succ n ih =>
    cases l with
    | nil =>
      simp only [loop]
      rw [frame_end _ _ (by simp [bytes])]
      simp [lastTime]
    | cons r l =>
      have hr := hl r (by simp)
      have hb : pre ++ bytes (r :: l) = pre ++ (r.bytes ++ bytes l) := by simp [bytes]
      simp only [loop]
      rw [hb, frame_rec k r hr]
      simp only
      rw [if_neg (by
        rintro ⟨h1, h2⟩
        rcases hs with hs | hs
        · rw [hs] at h2; cases h2
        · rw [List.take_succ_cons] at hs
          have := hs.1
          rw [time_rec, ht] at h1
          omega), rows_rec k hk r hr d hp hn]
      simp only
      have e : pre ++ (r.bytes ++ bytes l) = (pre ++ r.bytes) ++ bytes l := by simp
      have el : pre.length + k.size = (pre ++ r.bytes).length := by rw [List.length_append, rec_length k r hr]
      rw [e, el, time_rec, ih l (fun x hx => hl x (by simp [hx])) (pre ++ r.bytes) r.time
        (hs.imp id fun hs => by rw [List.take_succ_cons] at hs; exact hs.2)]
      rw [← el, List.take_succ_cons, lastTime_cons, List.map_cons, List.length_cons, List.head?_cons]
      cases hg : g.first <;> simp [hg] <;> grind

/-- What a read should give: the frames from where the file is, as many as asked for or as there are. -/
theorem C97_read (k : Kind) (hk : k.Ok) (ignore : Bool) (pre : Bytes) (r : Rec) (l : List Rec) (hl : ∀ x ∈ r :: l, k.Has x) (tag : Option Int)
    (r0 : Rec) (dur : Rat) (n : Nat) (hn : frameCount (k.desc (pre ++ bytes (r :: l)).length r0) dur = .ok n)
    (hs : ignore = true ∨ Steady k.tint (tag.getD (r.time - k.tint)) ((r :: l).take n)) :
    read (pre ++ bytes (r :: l)) ignore ⟨pre.length, tag, k.desc (pre ++ bytes (r :: l)).length r0⟩ dur =
      (.ok (n, ⟨((r :: l).take n).head?.map Rec.time, ((r :: l).take n).map Rec.rows⟩),
        ⟨pre.length + ((r :: l).take n).length * k.size, some (lastTime (tag.getD (r.time - k.tint)) ((r :: l).take n)),
          k.desc (pre ++ bytes (r :: l)).length r0⟩) := by
  have hsz := size_pos k
  have hb : pre ++ bytes (r :: l) = pre ++ (r.bytes ++ bytes l) := by simp [bytes]
  have hlen : (pre ++ bytes (r :: l)).length = pre.length + (l.length + 1) * k.size := by
    rw [List.length_append, bytes_length k _ hl]; rfl
  have htag : tagOf (pre ++ bytes (r :: l)) ⟨pre.length, tag, k.desc (pre ++ bytes (r :: l)).length r0⟩ =
      (.ok (tag.getD (r.time - k.tint), pre.length), (tagOf (pre ++ bytes (r :: l)) ⟨pre.length, tag, k.desc (pre ++ bytes (r :: l)).length r0⟩).2) := by
    unfold tagOf
    cases tag with
    | some t => rfl
    | none =>
      simp only
      rw [hb, frame_rec k r (hl r (by simp))]
      simp only
      rw [if_pos (by show k.size ≤ _; omega)]
      simp only
      rw [time_rec]
      show (Except.ok (r.time - (k.tint : Int), pre.length + k.size - k.size), _) = _
      rw [Nat.add_sub_cancel]
      rfl
  unfold read
  rw [if_neg (by
    rw [hlen]
    have : 0 < (l.length + 1) * k.size := Nat.mul_pos (by omega) hsz
    simp only; omega), htag]
  simp only
  rw [hn]
  simp only
  rw [if_neg (by omega), Int.toNat_natCast, loop_spec k hk ignore _ rfl rfl rfl (r :: l) hl pre n _ hs]
  simp

/-- At the end it is the end. -/
theorem C97_end (f : Bytes) (ignore : Bool) (s : St) (dur : Rat) (h : s.pos = f.length) : read f ignore s dur = (.error .eof, s) := by
  unfold read
  rw [if_pos h]

theorem steady_take (tint : Nat) (l : List Rec) (n : Nat) (t : Int) (h : Steady tint t l) :
    Steady tint t (l.take n) ∧ Steady tint (lastTime t (l.take n)) (l.drop n) := by
  induction l generalizing n t with
  | nil => simp [Steady, lastTime]
  | cons r l ih =>
    cases n with
    | zero => exact ⟨trivial, h⟩
    | succ n =>
      obtain ⟨h1, h2⟩ := ih n r.time h.2
      rw [List.take_succ_cons, lastTime_cons, List.drop_succ_cons]
      exact ⟨⟨h.1, h1⟩, h2⟩

theorem regular_steady (tint : Nat) (l : List Rec) (t : Int) (h : Regular tint t l) : Steady tint t l := by
  induction l generalizing t with
  | nil => trivial
  | cons r l ih => exact ⟨by have := h.1; omega, ih _ h.2⟩

theorem chunks_nil (c : Nat) : chunks c [] = [] := by unfold chunks; simp

theorem chunks_cons (c : Nat) (hc : 0 < c) (l : List Rec) (hl : l ≠ []) : chunks c l = l.take c :: chunks c (l.drop c) := by
  rw [chunks]
  rw [dif_neg]
  rintro (h | h)
  · exact hl h
  · omega

/-- Reading until the end: every frame is returned once, in order, in pieces of the same length but for the last. -/
theorem C97_sequence_partial (k : Kind) (hk : k.Ok) (ignore : Bool) (dur : Rat) (c : Nat) (hc : 0 < c) (r0 : Rec) (pre : Bytes) (l : List Rec)
    (hl : ∀ x ∈ l, k.Has x) (tag : Option Int) (hn : frameCount (k.desc (pre ++ bytes l).length r0) dur = .ok c)
    (hs : ignore = true ∨ ∃ t, Steady k.tint t l ∧ (tag = some t ∨ tag = none)) (m : Nat) (hm : l.length < m) :
    (sequence (pre ++ bytes l) ignore dur m ⟨pre.length, tag, k.desc (pre ++ bytes l).length r0⟩).1 =
      (chunks c l).map (fun ch => (c, ⟨ch.head?.map Rec.time, ch.map Rec.rows⟩)) ∧
    (sequence (pre ++ bytes l) ignore dur m ⟨pre.length, tag, k.desc (pre ++ bytes l).length r0⟩).2.1 = some .eof := by
  induction m generalizing l pre tag with
  | zero => omega
  | succ m ih =>
    cases l with
    | nil =>
      simp only [sequence]
      rw [C97_end _ _ _ _ (by simp [bytes]), chunks_nil]
      exact ⟨rfl, rfl⟩
    | cons r l =>
      have hst : ignore = true ∨ Steady k.tint (tag.getD (r.time - k.tint)) (r :: l) := by
        rcases hs with hs | ⟨t, h1, h2⟩
        · exact .inl hs
        · right
          rcases h2 with h2 | h2
          · rw [h2]; exact h1
          · rw [h2]
            refine ⟨?_, h1.2⟩
            simp only [Option.getD_none]
            omega
      simp only [sequence]
      rw [C97_read k hk ignore pre r l hl tag r0 dur c hn (hst.imp id fun h => (steady_take _ _ c _ h).1)]
      simp only
      have e : pre ++ bytes (r :: l) = (pre ++ bytes ((r :: l).take c)) ++ bytes ((r :: l).drop c) := by
        rw [List.append_assoc]
        congr 1
        unfold bytes
        rw [← List.flatMap_append, List.take_append_drop]
      have el : pre.length + ((r :: l).take c).length * k.size = (pre ++ bytes ((r :: l).take c)).length := by
        rw [List.length_append, bytes_length k _ fun x hx => hl x (List.mem_of_mem_take hx)]
      rw [chunks_cons c hc _ (by simp), el]
      have := ih (pre ++ bytes ((r :: l).take c)) ((r :: l).drop c) (fun x hx => hl x (List.mem_of_mem_drop hx))
        (some (lastTime (tag.getD (r.time - k.tint)) ((r :: l).take c))) (by rw [← e]; exact hn)
        (hst.imp id fun h => ⟨_, (steady_take _ _ c _ h).2, .inl rfl⟩)
        (by rw [List.length_drop]; simp only [List.length_cons] at hm ⊢; omega)
      rw [← e] at this
      rw [this.1, List.map_cons]
      exact ⟨rfl, this.2⟩

/-- Together the pieces are the file. -/
theorem C97_pieces (c : Nat) (hc : 0 < c) (l : List Rec) : (chunks c l).flatten = l ∧ ∀ ch ∈ chunks c l, ch ≠ [] ∧ ch.length ≤ c := by
  generalize hn : l.length = n
  induction n using Nat.strongRecOn generalizing l with
  | _ n ih =>
    by_cases hl : l = []
    · subst hl
      rw [chunks_nil]
      simp
    · have hp := List.length_pos_iff.mpr hl
      rw [chunks_cons c hc l hl]
      obtain ⟨h1, h2⟩ := ih (l.drop c).length (by rw [List.length_drop]; omega) (l.drop c) rfl
      refine ⟨by rw [List.flatten_cons, h1, List.take_append_drop], ?_⟩
      intro ch hch
      rcases List.mem_cons.mp hch with h | h
      · subst h
        refine ⟨?_, by rw [List.length_take]; omega⟩
        intro e
        have := congrArg List.length e
        rw [List.length_take, List.length_nil] at this
        omega
      · exact h2 ch h

/-- The number of frames is the one nearest to the duration, and at least one. -/
theorem C97_count (d : Desc) (dur : Rat) (hd : d.tint ≠ 0) (h0 : 0 ≤ dur) :
    ∃ n : Nat, 0 < n ∧ frameCount d dur = .ok n ∧ dur - (n : Rat) * d.tint ≤ (d.tint : Rat) / 2 ∧
      ((n : Rat) * d.tint - dur ≤ (d.tint : Rat) / 2 ∨ n = 1) := by
  have hp : (0 : Rat) < (d.tint : Rat) := by exact_mod_cast Nat.pos_of_ne_zero hd
  have hne : (d.tint : Rat) ≠ 0 := by intro e; rw [e] at hp; exact Rat.lt_irrefl hp
  have hx : dur / (d.tint : Rat) * (d.tint : Rat) = dur := Rat.div_mul_cancel hne
  have hx0 : 0 ≤ dur / (d.tint : Rat) := by
    rw [Rat.div_def]
    exact Rat.mul_nonneg h0 (Rat.le_of_lt (Rat.inv_pos.mpr hp))
  generalize hxe : dur / (d.tint : Rat) = x at hx hx0
  have hr := round_half x
  have r0 : 0 ≤ roundHalfEven x := by
    have := roundHalfEven_mono hx0
    rwa [show roundHalfEven 0 = 0 from round_int 0] at this
  have m1 := Rat.mul_le_mul_of_nonneg_right hr.1 (Rat.le_of_lt hp)
  have m2 := Rat.mul_le_mul_of_nonneg_right hr.2 (Rat.le_of_lt hp)
  unfold frameCount
  rw [if_neg hd, hxe]
  by_cases hz : roundHalfEven x = 0
  · rw [if_pos hz]
    rw [hz] at m1
    refine ⟨1, by decide, rfl, ?_, .inr rfl⟩
    have : (((0 : Int)) : Rat) = 0 := rfl
    have : ((1 : Nat) : Rat) = 1 := rfl
    grind
  · rw [if_neg hz]
    refine ⟨(roundHalfEven x).toNat, by omega, by rw [Int.toNat_of_nonneg r0], ?_⟩
    have hc : (((roundHalfEven x).toNat : Nat) : Rat) = (roundHalfEven x : Rat) := by
      have : (((roundHalfEven x).toNat : Int) : Rat) = (roundHalfEven x : Rat) := by rw [Int.toNat_of_nonneg r0]
      exact_mod_cast this
    rw [hc]
    exact ⟨by grind, .inl (by grind)⟩

/-! ### Faults -/

theorem loop_stuck (f : Bytes) (ignore : Bool) (d : Desc) (n p : Nat) (tag : Int) (g : Got) (h : frame f p = (.error .sync, p)) :
    loop f ignore d n p tag g = (.ok g, p, tag) := by
  induction n with
  | zero => rfl
  | succ n ih =>
    simp only [loop]
    rw [h]
    exact ih

/-- At a damaged frame every read gives nothing and stays where it is, for ever. -/
theorem C97_not_stuck (f : Bytes) (ignore : Bool) (s : St) (t : Int) (dur : Rat) (hd : s.desc.tint ≠ 0) (h0 : 0 ≤ dur) (ht : s.tag = some t)
    (hp : s.pos + 76 ≤ f.length) (hm : leDec (slice f s.pos 4) ≠ 0xC0DEC0DE) (m : Nat) :
    ∃ n : Nat, (sequence f ignore dur m s).1 = List.replicate m (n, ⟨none, []⟩) ∧ (sequence f ignore dur m s).2 = (none, s) := by
  obtain ⟨n, -, hn, -⟩ := C97_count s.desc dur hd h0
  have hr : read f ignore s dur = (.ok (n, ⟨none, []⟩), s) := by
    unfold read
    rw [if_neg (by omega)]
    unfold tagOf
    rw [ht]
    simp only
    rw [hn]
    simp only
    rw [if_neg (by omega), Int.toNat_natCast, loop_stuck _ _ _ _ _ _ _ (frame_sync f s.pos hp hm)]
    simp only
    rw [← ht]
  refine ⟨n, ?_⟩
  induction m with
  | zero => exact ⟨rfl, rfl⟩
  | succ m ih =>
    simp only [sequence]
    rw [hr]
    simp only
    rw [ih.1, ih.2]
    exact ⟨rfl, rfl⟩

/-- After a gap every read raises, as long as there are frames: the time of the last good frame stays. -/
theorem C97_not_resumed (k : Kind) (pre : Bytes) (r : Rec) (post : Bytes) (h : k.Has r) (r0 : Rec) (t : Int) (dur : Rat) (h0 : 0 ≤ dur) (hk : k.tint ≠ 0)
    (hgap : 1000 * r.time > 1000 * t + 1001 * k.tint) (size : Nat) :
    read (pre ++ (r.bytes ++ post)) false ⟨pre.length, some t, k.desc size r0⟩ dur =
      (.error .skip, ⟨(pre ++ r.bytes).length, some t, k.desc size r0⟩) := by
  have hl := rec_length k r h
  have hsz := size_pos k
  obtain ⟨n, hn0, hn, -⟩ := C97_count (k.desc size r0) dur hk h0
  unfold read
  rw [if_neg (by simp only [List.length_append]; omega)]
  unfold tagOf
  simp only
  rw [hn]
  simp only
  rw [if_neg (by omega), Int.toNat_natCast]
  obtain ⟨n, rfl⟩ : ∃ q, n = q + 1 := ⟨n - 1, by omega⟩
  simp only [loop]
  rw [frame_rec k r h]
  simp only
  rw [if_pos ⟨by rw [time_rec]; exact hgap, trivial⟩]
  simp only
  rw [List.length_append, hl]

/-- A frame from the past is not noticed. -/
theorem C97_not_backwards (tint : Nat) (t : Int) (r : Rec) (h : r.time ≤ t) : Steady tint t [r] := ⟨by omega, trivial⟩

/-- Less than a header at the end is returned as a read without data and without a time. -/
theorem C97_not_tail (f : Bytes) (ignore : Bool) (s : St) (t : Int) (dur : Rat) (hd : s.desc.tint ≠ 0) (h0 : 0 ≤ dur) (ht : s.tag = some t)
    (hp : s.pos < f.length) (hs : f.length < s.pos + 76) :
    ∃ n : Nat, read f ignore s dur = (.ok (n, ⟨none, []⟩), { s with pos := f.length }) := by
  obtain ⟨n, hn0, hn, -⟩ := C97_count s.desc dur hd h0
  refine ⟨n, ?_⟩
  unfold read
  rw [if_neg (by omega)]
  unfold tagOf
  rw [ht]
  simp only
  rw [hn]
  simp only
  rw [if_neg (by omega), Int.toNat_natCast]
  obtain ⟨n, rfl⟩ : ∃ q, n = q + 1 := ⟨n - 1, by omega⟩
  simp only [loop]
  rw [frame_short f s.pos hs (by omega)]

/-! ## Moving -/

theorem split_at (junk : Bytes) (l : List Rec) (j : Nat) (hj : j < l.length) :
    junk ++ bytes l = (junk ++ bytes (l.take j)) ++ (l[j].bytes ++ bytes (l.drop (j + 1))) := by
  rw [List.append_assoc]
  congr 1
  unfold bytes
  rw [← List.flatMap_cons, ← List.flatMap_append, ← List.drop_eq_getElem_cons hj, List.take_append_drop]

theorem pre_length (k : Kind) (junk : Bytes) (l : List Rec) (hl : ∀ x ∈ l, k.Has x) (j : Nat) (hj : j ≤ l.length) :
    (junk ++ bytes (l.take j)).length = junk.length + j * k.size := by
  rw [List.length_append, bytes_length k _ fun x hx => hl x (List.mem_of_mem_take hx), List.length_take, Nat.min_eq_left hj]

theorem frame_index (k : Kind) (junk : Bytes) (l : List Rec) (hl : ∀ x ∈ l, k.Has x) (j : Nat) (hj : j < l.length) :
    frame (junk ++ bytes l) (junk.length + j * k.size) = (.ok ⟨l[j].1, floats l[j].2⟩, junk.length + j * k.size + k.size) := by
  rw [split_at junk l j hj, ← pre_length k junk l hl j (by omega)]
  exact frame_rec k l[j] (hl _ (List.getElem_mem hj)) _ _

theorem describe_index (k : Kind) (hk : k.Ok) (junk : Bytes) (l : List Rec) (hl : ∀ x ∈ l, k.Has x) (j : Nat) (hj : j < l.length) :
    describe (junk ++ bytes l) (junk.length + j * k.size) = .ok (k.desc (junk ++ bytes l).length l[j]) := by
  rw [split_at junk l j hj, ← pre_length k junk l hl j (by omega)]
  exact describe_rec k hk l[j] (hl _ (List.getElem_mem hj)) _ _

/-- When the search ends, the time is within one integration of the one asked for. -/
theorem C97_close (f : Bytes) (size : Nat) (t0 : Int) (off : Rat) (n p : Nat) (diffs : List Rat) (t : Int) (q : Nat)
    (h : search f size t0 off n p diffs = .at t q) :
    ∃ (fr : Frame) (p' : Nat) (ti : Nat), frame f p' = (.ok fr, q + size) ∧ tint fr = .ok ti ∧ t = time fr ∧
      (t : Rat) - t0 - off ≤ ti ∧ off - ((t : Rat) - t0) ≤ ti := by
  induction n generalizing p diffs with
  | zero => simp only [search] at h; cases h
  | succ n ih =>
    simp only [search] at h
    generalize hf : frame f p = fp at h
    obtain ⟨e | fr, q'⟩ := fp
    · cases h
    · simp only at h
      split at h
      · next hsz =>
        generalize hti : tint fr = ti at h
        rcases ti with e | ti
        · cases h
        · simp only at h
          split at h
          · cases h
          · next hz =>
            split at h
            · next hc =>
              injection h with h1 h2
              subst h1 h2
              refine ⟨fr, p, ti, by rw [hf, Nat.sub_add_cancel hsz], hti, rfl, ?_⟩
              have hp : (0 : Rat) < (ti : Rat) := by exact_mod_cast Nat.pos_of_ne_zero hz
              have hne : (ti : Rat) ≠ 0 := by intro e; rw [e] at hp; exact Rat.lt_irrefl hp
              have hr := round_half (-((time fr : Rat) - ((t0 : Rat) + off)) / 2 / (ti : Rat))
              rw [hc] at hr
              have hx : -((time fr : Rat) - ((t0 : Rat) + off)) / 2 / (ti : Rat) * (ti : Rat) = -((time fr : Rat) - ((t0 : Rat) + off)) / 2 :=
                Rat.div_mul_cancel hne
              have m1 := Rat.mul_le_mul_of_nonneg_right hr.1 (Rat.le_of_lt hp)
              have m2 := Rat.mul_le_mul_of_nonneg_right hr.2 (Rat.le_of_lt hp)
              have z : ((0 : Int) : Rat) = 0 := rfl
              generalize -((time fr : Rat) - ((t0 : Rat) + off)) / 2 / (ti : Rat) = x at hx m1 m2
              constructor <;> grind
            · split at h
              · cases h
              · split at h
                · cases h
                · exact ih _ _ h
      · cases h

/-- In a gap of more than two integrations nothing is found. -/
theorem C97_not_gap (f : Bytes) (size : Nat) (t0 : Int) (off : Rat) (n p : Nat) (diffs : List Rat)
    (hgap : ∀ fr p' q ti, frame f p' = (.ok fr, q) → tint fr = .ok ti → (time fr : Rat) - t0 - off > ti ∨ off - ((time fr : Rat) - t0) > ti) (t : Int) (q : Nat) :
    search f size t0 off n p diffs ≠ .at t q := by
  intro h
  obtain ⟨fr, p', ti, h1, h2, h3, h4, h5⟩ := C97_close f size t0 off n p diffs t q h
  subst h3
  rcases hgap fr p' _ ti h1 h2 with h | h
  · exact absurd h4 (by grind)
  · exact absurd h5 (by grind)

/-- In a file without gaps moving goes to the nearest frame at once and says how far that is. -/
theorem C97_offset_partial (k : Kind) (hk : k.Ok) (junk : Bytes) (l : List Rec) (hl : ∀ x ∈ l, k.Has x) (T : Int)
    (ht : ∀ (j : Nat) (hj : j < l.length), l[j].time = T + j * k.tint) (i : Nat) (hi : i < l.length) (r0 : Rec) (tag : Option Int) (off : Rat) (n : Nat)
    (j : Nat) (hj : j < l.length) (hoff : roundHalfEven (off / (k.tint : Rat)) = (j : Int) - i) :
    offset (junk ++ bytes l) ⟨junk.length + i * k.size, tag, k.desc (junk ++ bytes l).length r0⟩ (n + 1) off =
      some (.ok (((j : Int) - i) * k.tint, ⟨junk.length + j * k.size, none, k.desc (junk ++ bytes l).length l[j]⟩)) ∧
    ((((j : Int) - i) * k.tint : Int) : Rat) - off ≤ (k.tint : Rat) / 2 ∧ off - ((((j : Int) - i) * k.tint : Int) : Rat) ≤ (k.tint : Rat) / 2 := by
  have hp : (0 : Rat) < (k.tint : Rat) := by exact_mod_cast Nat.pos_of_ne_zero hk.tint
  have hne : (k.tint : Rat) ≠ 0 := by intro e; rw [e] at hp; exact Rat.lt_irrefl hp
  have hr := round_half (off / (k.tint : Rat))
  rw [hoff] at hr
  have hx : off / (k.tint : Rat) * (k.tint : Rat) = off := Rat.div_mul_cancel hne
  have m1 := Rat.mul_le_mul_of_nonneg_right hr.1 (Rat.le_of_lt hp)
  have m2 := Rat.mul_le_mul_of_nonneg_right hr.2 (Rat.le_of_lt hp)
  have hc : ((((j : Int) - i) * k.tint : Int) : Rat) = (((j : Int) - i : Int) : Rat) * (k.tint : Rat) := by rw [Rat.intCast_mul]; rfl
  have near : ((((j : Int) - i) * k.tint : Int) : Rat) - off ≤ (k.tint : Rat) / 2 ∧ off - ((((j : Int) - i) * k.tint : Int) : Rat) ≤ (k.tint : Rat) / 2 := by
    rw [hc]
    generalize off / (k.tint : Rat) = x at hx m1 m2
    constructor <;> grind
  refine ⟨?_, near⟩
  have e1 : (k.desc (junk ++ bytes l).length r0).frameSize = k.size := rfl
  have e2 : (k.desc (junk ++ bytes l).length r0).tint = k.tint := rfl
  unfold offset
  simp only [e1, e2]
  rw [frame_index k junk l hl i hi]
  simp only
  rw [if_pos (by omega), if_neg hk.tint, hoff, Nat.add_sub_cancel]
  have hpos : ((junk.length + i * k.size : Nat) : Int) + ((j : Int) - i) * k.size = ((junk.length + j * k.size : Nat) : Int) := by
    push_cast
    rw [Int.sub_mul]
    omega
  rw [hpos, if_neg (by omega), Int.toNat_natCast]
  have hs : search (junk ++ bytes l) k.size (time ⟨l[i].1, floats l[i].2⟩) off (n + 1) (junk.length + j * k.size) [] = .at l[j].time (junk.length + j * k.size) := by
    simp only [search]
    rw [frame_index k junk l hl j hj]
    simp only
    rw [if_pos (by omega), tint_rec k hk _ (hl _ (List.getElem_mem hj))]
    simp only
    rw [if_neg hk.tint, time_rec, time_rec, Nat.add_sub_cancel]
    have hd : (l[j].time : Rat) - ((l[i].time : Rat) + off) = ((((j : Int) - i) * k.tint : Int) : Rat) - off := by
      rw [ht j hj, ht i hi]
      have a : ((T + (j : Int) * (k.tint : Int) : Int) : Rat) = (T : Rat) + (j : Rat) * (k.tint : Rat) := by rw [Rat.intCast_add, Rat.intCast_mul]; rfl
      have b : ((T + (i : Int) * (k.tint : Int) : Int) : Rat) = (T : Rat) + (i : Rat) * (k.tint : Rat) := by rw [Rat.intCast_add, Rat.intCast_mul]; rfl
      have c : (((j : Int) - i : Int) : Rat) = (j : Rat) - (i : Rat) := by rw [Rat.intCast_sub]; rfl
      rw [a, b, hc, c]
      grind
    rw [hd]
    have near' : -(((((j : Int) - i) * k.tint : Int) : Rat) - off) ≤ (k.tint : Rat) / 2 := by rw [Rat.neg_sub]; exact near.2
    replace near := near.1
    generalize ((((j : Int) - i) * k.tint : Int) : Rat) - off = y at near near'
    have h4 : -y / 2 / (k.tint : Rat) * (k.tint : Rat) = -y / 2 := Rat.div_mul_cancel hne
    have zero : roundHalfEven (-y / 2 / (k.tint : Rat)) = 0 := by
      have z : ((0 : Int) : Rat) = 0 := rfl
      generalize -y / 2 / (k.tint : Rat) = x at h4
      apply round_near
      · rw [z]
        refine Rat.not_le.mp fun hc => ?_
        have := Rat.mul_le_mul_of_nonneg_right hc (Rat.le_of_lt hp)
        grind
      · rw [z]
        refine Rat.not_le.mp fun hc => ?_
        have := Rat.mul_le_mul_of_nonneg_right hc (Rat.le_of_lt hp)
        grind
    rw [if_pos zero]
  rw [hs]
  simp only
  rw [describe_index k hk junk l hl j hj, time_rec, ht j hj, ht i hi]
  simp only [Option.some.injEq, Except.ok.injEq, Prod.mk.injEq, and_true]
  rw [Int.sub_mul]
  omega

/-- Past the end it is the end. -/
theorem C97_past (k : Kind) (hk : k.Ok) (junk : Bytes) (l : List Rec) (hl : ∀ x ∈ l, k.Has x) (i : Nat) (hi : i < l.length) (r0 : Rec)
    (tag : Option Int) (off : Rat) (n : Nat) (hoff : (l.length : Int) - i ≤ roundHalfEven (off / (k.tint : Rat))) :
    offset (junk ++ bytes l) ⟨junk.length + i * k.size, tag, k.desc (junk ++ bytes l).length r0⟩ (n + 1) off = some (.error .eof) := by
  have e1 : (k.desc (junk ++ bytes l).length r0).frameSize = k.size := rfl
  have e2 : (k.desc (junk ++ bytes l).length r0).tint = k.tint := rfl
  obtain ⟨j, hj⟩ : ∃ j : Nat, roundHalfEven (off / (k.tint : Rat)) = (j : Int) - i := ⟨(roundHalfEven (off / (k.tint : Rat)) + i).toNat, by omega⟩
  have hjl : l.length ≤ j := by omega
  unfold offset
  simp only [e1, e2]
  rw [frame_index k junk l hl i hi]
  simp only
  rw [if_pos (by omega), if_neg hk.tint, hj, Nat.add_sub_cancel]
  have hpos : ((junk.length + i * k.size : Nat) : Int) + ((j : Int) - i) * k.size = ((junk.length + j * k.size : Nat) : Int) := by
    push_cast
    rw [Int.sub_mul]
    omega
  rw [hpos, if_neg (by omega), Int.toNat_natCast]
  simp only [search]
  rw [frame_end _ _ (by
    rw [List.length_append, bytes_length k l hl]
    have := Nat.mul_le_mul_right k.size hjl
    omega)]
  rfl

/-- Before the start of the file it raises. -/
theorem C97_before (k : Kind) (hk : k.Ok) (junk : Bytes) (l : List Rec) (hl : ∀ x ∈ l, k.Has x) (i : Nat) (hi : i < l.length) (r0 : Rec)
    (tag : Option Int) (off : Rat) (n : Nat) (hoff : (junk.length : Int) + i * k.size + roundHalfEven (off / (k.tint : Rat)) * k.size < 0) :
    offset (junk ++ bytes l) ⟨junk.length + i * k.size, tag, k.desc (junk ++ bytes l).length r0⟩ n off = some (.error .seek) := by
  have e1 : (k.desc (junk ++ bytes l).length r0).frameSize = k.size := rfl
  have e2 : (k.desc (junk ++ bytes l).length r0).tint = k.tint := rfl
  unfold offset
  simp only [e1, e2]
  rw [frame_index k junk l hl i hi]
  simp only
  rw [if_pos (by omega), if_neg hk.tint, Nat.add_sub_cancel, if_pos (by push_cast; omega)]

/-! ## There are such files -/

deriving instance DecidableEq for Except

/-- A frame of two channels and two products, of 60 ticks. -/
def sample (t : Nat) : Rec :=
  (⟨t + 5, 5, 10, [4, 5], [6, 7, 8, 9], [0, 0, 0, 0], 1, 0x09, 2, 0, 2, 3, [0, 0, 0, 0]⟩, List.replicate 32 (UInt8.ofNat t))

def kind : Kind := ⟨0x09, 2, 10, 3⟩

theorem sample_has (t : Nat) (h : t < 1000) : kind.Has (sample t) ∧ (sample t).time = t := by
  have ok : (sample t).1.Ok := by
    unfold sample
    exact ⟨by simp only; omega, by simp, by simp, ⟨4, 5, rfl, by omega, by omega⟩, ⟨6, 7, 8, 9, rfl, by omega, by omega, by omega, by omega⟩,
      ⟨0, 0, 0, 0, rfl, by omega, by omega, by omega, by omega⟩, by simp, by simp, by simp, by simp, by simp, by simp,
      ⟨0, 0, 0, 0, rfl, by omega, by omega, by omega, by omega⟩⟩
  refine ⟨⟨ok, rfl, rfl, rfl, rfl, by unfold sample; rw [List.length_replicate]; rfl⟩, ?_⟩
  show ((t + 5 : Nat) : Int) - (5 : Nat) = t
  omega

example : kind.Ok ∧ kind.tint = 60 ∧ kind.size = 108 := ⟨⟨by decide, by decide, by decide⟩, by decide, by decide⟩

example : Regular 60 40 ([100, 160, 220].map sample) ∧ Steady 60 40 ([100, 160, 40].map sample) := by
  simp only [Regular, Steady, List.map_cons, List.map_nil, (sample_has 100 (by decide)).2, (sample_has 160 (by decide)).2,
    (sample_has 220 (by decide)).2, (sample_has 40 (by decide)).2]
  decide

example : frameCount (kind.desc 0 (sample 0)) 150 = .ok 2 ∧ frameCount (kind.desc 0 (sample 0)) 151 = .ok 3 ∧ frameCount (kind.desc 0 (sample 0)) 1 = .ok 1 := by
  decide +kernel

/-- Three bytes, then four frames, the last after a gap. -/
def file : Bytes := [1, 2, 3] ++ bytes ([100, 160, 220, 700].map sample)

/-- Two frames at a time, gaps ignored or not. -/
example : start file = .ok ⟨3, none, kind.desc 435 (sample 100)⟩ ∧
    (sequence file true 120 10 ⟨3, none, kind.desc 435 (sample 100)⟩).1.map (fun g : Nat × Got => (g.1, g.2.first, g.2.rows.length)) =
      [(2, some 100, 2), (2, some 220, 2)] ∧
    (sequence file false 120 10 ⟨3, none, kind.desc 435 (sample 100)⟩).2.1 = some .skip := by
  decide +kernel

/-- The search for a time in a gap ends at another frame than the one whose time is returned: 120 ticks are said, 600 it is. -/
theorem C97_not_moved : offset file ⟨3, none, kind.desc 435 (sample 100)⟩ 100 200 =
    some (.ok (120, ⟨3 + 3 * 108, none, kind.desc 435 (sample 700)⟩)) ∧ (kind.desc 435 (sample 700)).start = 100 + 600 ∧
    offset file ⟨3, none, kind.desc 435 (sample 100)⟩ 7 200 = none := by
  decide +kernel

/-- A time after a gap, of a frame that is there, is said to be after the end of the file. -/
theorem C97_not_found : offset file ⟨3, none, kind.desc 435 (sample 100)⟩ 100 600 = some (.error .eof) := by
  decide +kernel

/-- If the first frame cannot be read, the next frame is said to be after a gap. -/
theorem C97_not_first : (read (7 :: bytes ([100, 160].map sample)) false ⟨0, none, kind.desc 217 (sample 100)⟩ 60) =
    (.error .sync, ⟨0, some 0, kind.desc 217 (sample 100)⟩) ∧
    (read (7 :: bytes ([100, 160].map sample)) false ⟨1, some 0, kind.desc 217 (sample 100)⟩ 60).1 = .error .skip := by
  decide +kernel

/-- A frame without one of the products of the file gives rows that are not numbers; a frame of one channel is spread over all; frames of
other numbers of channels raise. -/
theorem C97_not_kind (n : Nat) (x : Option Nat × Nat) (l : List (Option Nat × Nat)) :
    assign n none = some (List.replicate n none) ∧ assign n (some [x]) = some (List.replicate n (some x)) ∧
    (l.length ≠ n → l.length ≠ 1 → assign n (some l) = none) := by
  refine ⟨rfl, ?_, ?_⟩
  · simp only [assign]
    by_cases h : [x].length = n
    · rw [if_pos h, ← h]; rfl
    · rw [if_neg h]
  · intro h h1
    simp only [assign]
    rw [if_neg h]
    match l, h1 with
    | [], _ => rfl
    | [_], h1 => exact absurd rfl h1
    | _ :: _ :: _, _ => rfl

/-- Asked for 60 ticks it goes 800, for the way back is longer than the file. -/
theorem C97_not_nearest : offset (bytes ([100, 900].map sample)) ⟨0, none, kind.desc 216 (sample 100)⟩ 100 60 =
    some (.ok (800, ⟨108, none, kind.desc 216 (sample 900)⟩)) := by
  decide +kernel

end Verif.LdpSpec

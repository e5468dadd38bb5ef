import Verif.Model.MemoryFile
/-!
# C21: the memory cache compared to regular files

The specification is a regular file described byte by byte: a length and the byte at each position.
-/
namespace Verif.MemoryFile

/-- A regular file: bytes at positions below `len`. -/
structure RFile where
  len : Nat
  byte : Nat → UInt8

/-- An open regular file: position, and whether it was opened for appending. -/
structure RHandle where
  file : RFile
  pos : Nat
  app : Bool

/-- The bytes `[p, p+n)` that exist. -/
def RFile.read (f : RFile) (p n : Nat) : Bytes :=
  (List.range (min n (f.len - p))).map (fun j => f.byte (p + j))

/-- The file after `d` is written at `p`: `d` there, zeros in a gap, everything else as before. -/
def RFile.write (f : RFile) (p : Nat) (d : Bytes) : RFile :=
  { len := if d = [] then f.len else max f.len (p + d.length)
    byte := fun i =>
      if p ≤ i ∧ i < p + d.length then d.getD (i - p) 0 else if i < f.len then f.byte i else 0 }

/-- Calls on a regular file.  In append mode every write goes to the end. -/
def rstep (h : RHandle) : Op → Out × RHandle
  | .write d =>
    let p := if h.app then h.file.len else h.pos
    (.num d.length, { h with file := h.file.write p d, pos := p + d.length })
  | .read n =>
    let k := match n with
      | some n => n
      | none => h.file.len - h.pos
    (.bytes (h.file.read h.pos k), { h with pos := h.pos + min k (h.file.len - h.pos) })
  | .seek p => (.unit, { h with pos := p })
  | .seekEnd => (.unit, { h with pos := h.file.len })
  | .tell => (.num h.pos, h)
  | .truncate n =>
    (.num n, { h with file := { len := n, byte := fun i => if i < h.file.len then h.file.byte i else 0 } })
  | .flush _ => (.unit, h)

def rrunOps : RHandle → List Op → List Out × RHandle
  | h, [] => ([], h)
  | h, o :: ops => ((rstep h o).1 :: (rrunOps (rstep h o).2 ops).1, (rrunOps (rstep h o).2 ops).2)

/-- A directory of regular files. -/
abbrev FS := Nat → Option RFile

def RFile.empty : RFile := ⟨0, fun _ => 0⟩

/-- A `with open(name, mode)` block on regular files; `none` if the file to read does not exist. -/
def rsession (fs : FS) (name : Nat) (m : Mode) (ops : List Op) : Option (List Out × FS) :=
  let start : Option RHandle := match m, fs name with
    | .r, none => none
    | .r, some f => some ⟨f, 0, false⟩
    | .w, _ => some ⟨RFile.empty, 0, false⟩
    | .a, some f => some ⟨f, f.len, true⟩
    | .a, none => some ⟨RFile.empty, 0, true⟩
  start.map fun h =>
    ((rrunOps h ops).1, fun n => if n = name then some (rrunOps h ops).2.file else fs n)

def rsessions : FS → List (Nat × Mode × List Op) → Option (List (List Out) × FS)
  | fs, [] => some ([], fs)
  | fs, (n, m, ops) :: l =>
    match rsession fs n m ops with
    | none => none
    | some (o, fs1) =>
      match rsessions fs1 l with
      | none => none
      | some (os, fs2) => some (o :: os, fs2)

/-- The calls make no file longer by `truncate`. -/
def NoGrow : RHandle → List Op → Prop
  | _, [] => True
  | h, o :: ops => (match o with | .truncate n => n ≤ h.file.len | _ => True) ∧ NoGrow (rstep h o).2 ops

/-- Same for sessions that only use the modes 'r' and 'w'. -/
def ReadWrite : FS → List (Nat × Mode × List Op) → Prop
  | _, [] => True
  | fs, (n, m, ops) :: l =>
    m ≠ .a ∧ NoGrow ⟨if m = .w then RFile.empty else (fs n).getD RFile.empty, 0, false⟩ ops ∧
      ∀ o fs1, rsession fs n m ops = some (o, fs1) → ReadWrite fs1 l

/-- All bytes of a regular file. -/
def RFile.content (f : RFile) : Bytes := (List.range f.len).map f.byte

/-! ### helper lemmas -/

theorem content_length (f : RFile) : f.content.length = f.len := by simp [RFile.content]

theorem content_get? (f : RFile) (i : Nat) :
    f.content[i]? = if i < f.len then some (f.byte i) else none := by
  unfold RFile.content
  rw [List.getElem?_map]
  by_cases h : i < f.len
  · rw [if_pos h, List.getElem?_range h]; rfl
  · rw [if_neg h, List.getElem?_eq_none (by simpa using h)]; rfl

theorem read_eq (f : RFile) (p n : Nat) : readAt f.content p n = f.read p n := by
  apply List.ext_getElem?
  intro i
  unfold readAt RFile.read
  rw [List.getElem?_map, List.getElem?_take, List.getElem?_drop, content_get?]
  by_cases h1 : i < n
  · rw [if_pos h1]
    by_cases h2 : p + i < f.len
    · rw [if_pos h2, List.getElem?_range (by omega)]; rfl
    · rw [if_neg h2, List.getElem?_eq_none (by simp; omega)]; rfl
  · rw [if_neg h1, List.getElem?_eq_none (by simp; omega)]; rfl

theorem write_get? (buf : Bytes) (p : Nat) (d : Bytes) (hd : d ≠ []) (i : Nat) :
    (bioWrite buf p d)[i]? = if i < p then (if i < buf.length then buf[i]? else some 0)
      else if i < p + d.length then d[i - p]? else buf[i]? := by
  unfold bioWrite
  rw [if_neg hd]
  have hpl : (buf ++ List.replicate (p - buf.length) (0 : UInt8)).length = max buf.length p := by
    rw [List.length_append, List.length_replicate]; omega
  have htl : ((buf ++ List.replicate (p - buf.length) (0 : UInt8)).take p).length = p := by
    rw [List.length_take, hpl]; omega
  simp only []
  rw [List.append_assoc, List.getElem?_append, htl]
  by_cases h1 : i < p
  · rw [if_pos h1, if_pos h1, List.getElem?_take, if_pos h1, List.getElem?_append]
    by_cases h2 : i < buf.length
    · rw [if_pos h2, if_pos h2]
    · rw [if_neg h2, if_neg h2, List.getElem?_replicate, if_pos (by omega)]
  · rw [if_neg h1, if_neg h1, List.getElem?_append]
    by_cases h2 : i < p + d.length
    · rw [if_pos (by omega), if_pos h2]
    · rw [if_neg (by omega), if_neg h2, List.getElem?_drop, List.getElem?_append]
      have : p + d.length + (i - p - d.length) = i := by omega
      rw [this]
      by_cases h3 : i < buf.length
      · rw [if_pos h3]
      · rw [if_neg h3, List.getElem?_replicate, if_neg (by omega),
          List.getElem?_eq_none (by omega)]

theorem write_eq (f : RFile) (p : Nat) (d : Bytes) :
    bioWrite f.content p d = (f.write p d).content := by
  by_cases hd : d = []
  · subst hd
    unfold bioWrite
    rw [if_pos rfl]
    apply List.ext_getElem?
    intro i
    rw [content_get?, content_get?]
    simp only [RFile.write, if_true]
    by_cases h : i < f.len
    · rw [if_pos h, if_pos h, if_neg (by simp), if_pos h]
    · rw [if_neg h, if_neg h]
  · apply List.ext_getElem?
    intro i
    have hdl : 0 < d.length := List.length_pos_iff.mpr hd
    rw [write_get? _ _ _ hd, content_length, content_get?, content_get?]
    simp only [RFile.write, hd, if_false]
    by_cases h1 : i < p
    · rw [if_pos h1, if_neg (show ¬ (p ≤ i ∧ i < p + d.length) by omega),
        if_pos (show i < max f.len (p + d.length) by omega)]
      by_cases h2 : i < f.len <;> simp [h2]
    · rw [if_neg h1]
      by_cases h2 : i < p + d.length
      · rw [if_pos h2, if_pos (show i < max f.len (p + d.length) by omega),
          if_pos (show p ≤ i ∧ i < p + d.length by omega), List.getD_eq_getElem?_getD,
          List.getElem?_eq_getElem (show i - p < d.length by omega)]
        rfl
      · rw [if_neg h2, if_neg (show ¬ (p ≤ i ∧ i < p + d.length) by omega)]
        by_cases h3 : i < f.len
        · rw [if_pos h3, if_pos (show i < max f.len (p + d.length) by omega), if_pos h3]
        · rw [if_neg h3, if_neg (show ¬ i < max f.len (p + d.length) by omega)]

/-- A memory file and an open regular file (not appending) agree. -/
def Sim (f : MFile) (h : RHandle) : Prop := f.buf = h.file.content ∧ f.pos = h.pos ∧ h.app = false

theorem step_sim (m : Mode) (f : MFile) (h : RHandle) (o : Op) (hs : Sim f h)
    (hg : match o with | .truncate n => n ≤ h.file.len | _ => True) :
    (step m f o).1 = (rstep h o).1 ∧ Sim (step m f o).2 (rstep h o).2 := by
  obtain ⟨h1, h2, h3⟩ := hs
  cases o with
  | write d =>
    refine ⟨rfl, ?_, ?_, h3⟩
    · simp only [step, rstep, h3, h1, h2, write_eq]
      rfl
    · simp [step, rstep, h3, h2]
  | read n =>
    have hr : ∀ k, (h.file.read h.pos k).length = min k (h.file.len - h.pos) := by
      intro k; simp [RFile.read]
    cases n with
    | some n =>
      refine ⟨?_, ?_, ?_, h3⟩
      · simp only [step, rstep, h1, h2, read_eq]
      · simp only [step, rstep, h1]
      · simp only [step, rstep, h1, h2, read_eq, hr]
    | none =>
      have hd : h.file.content.drop h.pos = h.file.read h.pos (h.file.len - h.pos) := by
        rw [← read_eq]
        unfold readAt
        rw [List.take_of_length_le (by rw [List.length_drop, content_length]; omega)]
      refine ⟨?_, ?_, ?_, h3⟩
      · simp only [step, rstep, h1, h2, hd]
      · simp only [step, rstep, h1]
      · simp only [step, rstep, h1, h2, hd, hr]
  | seek p => exact ⟨rfl, h1, rfl, h3⟩
  | seekEnd => exact ⟨rfl, h1, by simp [step, rstep, h1, content_length], h3⟩
  | tell => exact ⟨by simp [step, rstep, h2], h1, h2, h3⟩
  | truncate n =>
    refine ⟨rfl, ?_, h2, h3⟩
    simp only [step, rstep, h1]
    apply List.ext_getElem?
    intro i
    simp only at hg
    rw [List.getElem?_take, content_get?, content_get?]
    simp only
    by_cases h4 : i < n
    · rw [if_pos h4, if_pos h4, if_pos (show i < h.file.len by omega),
        if_pos (show i < h.file.len by omega)]
    · rw [if_neg h4, if_neg h4]
  | flush t =>
    refine ⟨rfl, ?_⟩
    unfold Sim
    simp only [step, rstep]
    split <;> exact ⟨h1, h2, h3⟩

theorem runOps_sim (m : Mode) (ops : List Op) : ∀ (f : MFile) (h : RHandle), Sim f h → NoGrow h ops →
    (runOps m f ops).1 = (rrunOps h ops).1 ∧ Sim (runOps m f ops).2 (rrunOps h ops).2 := by
  induction ops with
  | nil => intro f h hs _; exact ⟨rfl, hs⟩
  | cons o ops ih =>
    intro f h hs hg
    obtain ⟨h1, h2⟩ := step_sim m f h o hs hg.1
    obtain ⟨h3, h4⟩ := ih _ _ h2 hg.2
    refine ⟨?_, h4⟩
    simp only [runOps, rrunOps, h1, h3]

theorem find_update_self (c : Cache) (n : Nat) (f g : MFile) (h : find c n = some g) :
    find (update c n f) n = some f := by
  induction c with
  | nil => simp [find] at h
  | cons p c ih =>
    by_cases hp : p.1 = n
    · simp [find, update, hp]
    · simp [find, update, hp] at h ih ⊢
      obtain ⟨a, ha⟩ := h
      exact ih _ ha

theorem find_update_other (c : Cache) (n k : Nat) (f : MFile) (h : k ≠ n) :
    find (update c n f) k = find c k := by
  induction c with
  | nil => rfl
  | cons p c ih =>
    by_cases hp : p.1 = n
    · have hnk : ¬ n = k := by omega
      simp [find, update, hp, hnk] at ih ⊢
      exact ih
    · by_cases hk : p.1 = k
      · simp [find, update, hk, h]
      · simp [find, update, hp, hk] at ih ⊢
        exact ih

theorem find_append_new (c : Cache) (n k : Nat) (f : MFile) (h : find c n = none) :
    find (c ++ [(n, f)]) k = if k = n then some f else find c k := by
  induction c with
  | nil =>
    by_cases hk : k = n
    · subst hk; simp [find]
    · have : ¬ n = k := by omega
      simp [find, this, hk]
  | cons p c ih =>
    by_cases hp : p.1 = n
    · simp [find, hp] at h
    · by_cases hk : p.1 = k
      · have : ¬ k = n := by omega
        simp [find, hk, this]
      · simp [find, hp, hk] at h ih ⊢
        exact ih h

theorem manage_zero (c : Cache) : manage 0 c = c := by
  unfold manage FileCache.manage
  simp only [Nat.lt_irrefl, if_false]
  rw [List.filter_eq_self]
  intro p hp
  simp only [List.map_map, List.contains_iff_mem, List.mem_map]
  exact ⟨p, hp, rfl⟩

/-- The look-up after a session without a size limit. -/
theorem session_find (c : Cache) (name : Nat) (m : Mode) (ops : List Op) (k : Nat) :
    let f := (find c name).getD MFile.new
    let f1 := if m = .w then { f with buf := [] } else f
    (session 0 c name m ops).1 = (runOps m f1 ops).1 ∧
    find (session 0 c name m ops).2 k =
      if k = name then some (close (runOps m f1 ops).2) else find c k := by
  intro f f1
  cases hc : find c name with
  | some g =>
    have hf : f = g := by simp [f, hc]
    have e : session 0 c name m ops = ((runOps m f1 ops).1,
        update (if m.writes then manage 0 (update c name f1) else update c name f1) name
          (close (runOps m f1 ops).2)) := by
      simp only [session, hc, f1, hf]
    rw [e]
    refine ⟨rfl, ?_⟩
    simp only [manage_zero, ite_self]
    by_cases hk : k = name
    · subst hk
      rw [if_pos rfl]
      exact find_update_self _ _ _ _ (find_update_self _ _ _ _ hc)
    · rw [if_neg hk, find_update_other _ _ _ _ hk, find_update_other _ _ _ _ hk]
  | none =>
    have hf : f = MFile.new := by simp [f, hc]
    have e : session 0 c name m ops = ((runOps m f1 ops).1,
        update (if m.writes then manage 0 (update (c ++ [(name, MFile.new)]) name f1)
          else update (c ++ [(name, MFile.new)]) name f1) name (close (runOps m f1 ops).2)) := by
      simp only [session, hc, f1, hf]
    rw [e]
    refine ⟨rfl, ?_⟩
    simp only [manage_zero, ite_self]
    have hn : find (c ++ [(name, MFile.new)]) name = some MFile.new := by
      rw [find_append_new _ _ _ _ hc, if_pos rfl]
    by_cases hk : k = name
    · subst hk
      rw [if_pos rfl]
      exact find_update_self _ _ _ _ (find_update_self _ _ _ _ hn)
    · rw [if_neg hk, find_update_other _ _ _ _ hk, find_update_other _ _ _ _ hk,
        find_append_new _ _ _ _ hc, if_neg hk]

/-- The cache and the directory hold the same files, and all files in the cache are rewound. -/
def Same (c : Cache) (fs : FS) : Prop :=
  ∀ n, match fs n with
    | none => find c n = none
    | some g => ∃ f, find c n = some f ∧ f.buf = g.content ∧ f.pos = 0

/-! ### the property -/

/-- Missing from the full property: append mode (`C21_append`), reading a file that does not exist
(`C21_missing`), `truncate` beyond the end (`C21_truncate`), iteration (`C21_iter`) and caches with a
size limit (`C21_evicted`).  For every sequence of read and write sessions on any files that regular
files allow, every call returns what it returns on a regular file, and the files have the same content
afterwards. -/
theorem C21_refines_partial (l : List (Nat × Mode × List Op)) : ∀ (c : Cache) (fs fs' : FS)
    (out : List (List Out)), Same c fs → ReadWrite fs l → rsessions fs l = some (out, fs') →
    (sessions 0 c l).1 = out ∧ Same (sessions 0 c l).2 fs' := by
  induction l with
  | nil =>
    intro c fs fs' out hs _ h
    simp only [rsessions, Option.some.injEq, Prod.mk.injEq] at h
    obtain ⟨h1, h2⟩ := h
    subst h1; subst h2
    exact ⟨rfl, hs⟩
  | cons x l ih =>
    obtain ⟨n, m, ops⟩ := x
    intro c fs fs' out hs hv h
    obtain ⟨hm, hg, hrest⟩ := hv
    simp only [rsessions] at h
    cases hr : rsession fs n m ops with
    | none => simp [hr] at h
    | some p =>
      obtain ⟨o, fs1⟩ := p
      rw [hr] at h
      simp only at h
      cases hr2 : rsessions fs1 l with
      | none => simp [hr2] at h
      | some q =>
        obtain ⟨os, fs2⟩ := q
        rw [hr2] at h
        simp only [Option.some.injEq, Prod.mk.injEq] at h
        obtain ⟨ho, hf⟩ := h
        subst ho; subst hf
        -- the handle the session starts with
        have hstart : ∃ hd : RHandle, hd = ⟨if m = .w then RFile.empty else (fs n).getD RFile.empty, 0, false⟩ ∧
            o = (rrunOps hd ops).1 ∧
            fs1 = fun k => if k = n then some (rrunOps hd ops).2.file else fs k := by
          refine ⟨_, rfl, ?_⟩
          unfold rsession at hr
          cases m with
          | a => exact absurd rfl hm
          | w =>
            simp only [Option.map_some, Option.some.injEq, Prod.mk.injEq] at hr
            simp only [if_true]
            exact ⟨hr.1.symm, hr.2.symm⟩
          | r =>
            cases hfn : fs n with
            | none => simp [hfn] at hr
            | some g =>
              simp only [hfn, Option.map_some, Option.some.injEq, Prod.mk.injEq] at hr
              simp only [reduceCtorEq, if_false, Option.getD_some]
              exact ⟨hr.1.symm, hr.2.symm⟩
        obtain ⟨hd, hhd, ho1, hfs1⟩ := hstart
        have hsn := hs n
        have hsim : Sim (if m = .w then { (find c n).getD MFile.new with buf := [] }
            else (find c n).getD MFile.new) hd := by
          rw [hhd]
          cases hfn : fs n with
          | none =>
            rw [hfn] at hsn
            simp only at hsn
            rw [hsn]
            split <;> exact ⟨rfl, rfl, rfl⟩
          | some g =>
            rw [hfn] at hsn
            obtain ⟨f, hf1, hf2, hf3⟩ := hsn
            rw [hf1]
            split
            · exact ⟨rfl, hf3, rfl⟩
            · exact ⟨hf2, hf3, rfl⟩
        rw [← hhd] at hg
        have hops := runOps_sim m ops _ _ hsim hg
        have hfind := session_find c n m ops
        have hsame : Same (session 0 c n m ops).2 fs1 := by
          intro k
          rw [hfs1, (hfind k).2]
          by_cases hk : k = n
          · simp only [hk, if_true]
            exact ⟨_, rfl, hops.2.1, rfl⟩
          · simp only [hk, if_false]
            exact hs k
        have := ih _ _ _ _ hsame (hrest _ _ hr) hr2
        refine ⟨?_, this.2⟩
        simp only [sessions]
        rw [this.1, (hfind n).1, hops.1, ← ho1]

/-- The plain case in words: what is written in one session is what the next session reads, for every
cache without limit, whatever was in the file before (files in the cache that are not open are
rewound, `C21_rewound`). -/
theorem C21_write_read (c : Cache) (n : Nat) (ds : List Bytes) (hpos : ∀ f, find c n = some f → f.pos = 0) :
    (sessions 0 c [(n, .w, ds.map .write), (n, .r, [.read none])]).1 =
      [ds.map (fun d => .num d.length), [.bytes ds.flatten]] := by
    have hrun : ∀ (ds : List Bytes) (b : Bytes) (t : Nat),
        runOps .w ⟨b, b.length, t⟩ (ds.map .write) =
          (ds.map (fun d => .num d.length), ⟨b ++ ds.flatten, (b ++ ds.flatten).length, t⟩) := by
      intro ds
      induction ds with
      | nil => intro b t; simp [runOps]
      | cons d ds ih =>
        intro b t
        have hw : bioWrite b b.length d = b ++ d := by
          unfold bioWrite
          by_cases hd : d = []
          · simp [hd]
          · simp [hd]
        have hl : b.length + d.length = (b ++ d).length := by simp
        simp only [List.map_cons, runOps, step, hw, hl, ih, List.flatten_cons, List.append_assoc]
    have h0 : ((find c n).getD MFile.new).pos = 0 := by
      cases hc : find c n with
      | none => rfl
      | some f =>
        simp only [Option.getD_some]
        exact hpos f hc
    have e1 := session_find c n .w (ds.map .write)
    have hfile : { (find c n).getD MFile.new with buf := [] } =
        (⟨[], ([] : Bytes).length, ((find c n).getD MFile.new).mtime⟩ : MFile) := by
      simp [h0]
    have e2 := session_find (session 0 c n .w (ds.map .write)).2 n .r [.read none] n
    simp only [if_true, hfile, hrun, reduceCtorEq, if_false] at e1 e2
    simp only [sessions]
    rw [(e1 n).1, e2.1, (e1 n).2]
    simp [runOps, step, close]

/-- After any session in any mode the file is rewound. -/
theorem C21_rewound (c : Cache) (n : Nat) (m : Mode) (ops : List Op) (f : MFile)
    (h : find (session 0 c n m ops).2 n = some f) : f.pos = 0 := by
  rw [(session_find c n m ops n).2, if_pos rfl] at h
  injection h with h
  rw [← h]
  rfl

/-- A session on one file leaves all the others as they were. -/
theorem C21_others (c : Cache) (n k : Nat) (m : Mode) (ops : List Op) (h : k ≠ n) :
    find (session 0 c n m ops).2 k = find c k := by
  rw [(session_find c n m ops k).2, if_neg h]

/-- Append mode is false for every non-empty file: the data go over its beginning instead of its
end.  (`d` is one write in append mode.) -/
theorem C21_append (c : Cache) (n : Nat) (f : MFile) (d : Bytes) (hf : find c n = some f) (h0 : f.pos = 0) :
    (find (session 0 c n .a [.write d]).2 n).map MFile.buf = some (d ++ f.buf.drop d.length) := by
  rw [(session_find c n .a [.write d] n).2, if_pos rfl]
  simp only [hf, Option.getD_some, reduceCtorEq, if_false, runOps, step, close, Option.map_some,
    h0, bioWrite]
  split
  · rename_i hd; subst hd; simp
  · simp

/-- Witness: "abc" then append "d" gives "dbc"; a regular file would hold "abcd". -/
theorem C21_append_witness :
    (sessions 0 [] [(0, .w, [.write [97, 98, 99]]), (0, .a, [.write [100]]), (0, .r, [.read none])]).1 =
      [[.num 3], [.num 1], [.bytes [100, 98, 99]]] ∧
    (rsessions (fun _ => none)
      [(0, .w, [.write [97, 98, 99]]), (0, .a, [.write [100]]), (0, .r, [.read none])]).map Prod.fst =
      some [[.num 3], [.num 1], [.bytes [97, 98, 99, 100]]] := by
  decide

/-- Opening a file that is not in the cache for reading creates an empty one; a regular file raises an
error. -/
theorem C21_missing (c : Cache) (n : Nat) (h : find c n = none) :
    (session 0 c n .r [.read none]).1 = [.bytes []] ∧
    find (session 0 c n .r [.read none]).2 n = some MFile.new ∧
    ∀ fs : FS, fs n = none → rsession fs n .r [.read none] = none := by
  have e := session_find c n .r [.read none] n
  simp only [h, Option.getD_none, reduceCtorEq, if_false, if_true] at e
  refine ⟨?_, ?_, ?_⟩
  · rw [e.1]; rfl
  · rw [e.2]; rfl
  · intro fs hfs
    simp [rsession, hfs]

/-- `truncate` beyond the end makes a regular file longer, but not a memory file. -/
theorem C21_truncate :
    (sessions 0 [] [(0, .w, [.write [1], .truncate 3, .seek 0, .read none])]).1 =
      [[.num 1, .num 3, .unit, .bytes [1]]] ∧
    (rsessions (fun _ => none) [(0, .w, [.write [1], .truncate 3, .seek 0, .read none])]).map Prod.fst =
      some [[.num 1, .num 3, .unit, .bytes [1, 0, 0]]] := by
  decide

/-- Iterating over the lines of a memory file gives at most one line, so for every file with more than
one line the rest is missing. -/
theorem C21_iter (buf : Bytes) : (iter buf).length ≤ 1 ∧
    ((iter buf).flatten = buf ↔ readline buf = buf) := by
  unfold iter
  split
  · rename_i h
    cases buf with
    | nil => simp [readline]
    | cons b l =>
      simp only [readline] at h
      split at h <;> simp at h
  · simp

theorem C21_iter_witness : iter [97, 10, 98, 10] = [[97, 10]] := by decide

/-- In a cache above its size limit the file that is being written can be the one that is evicted: its
data are gone after the session.  (A new file has modification time 0, so it counts as oldest.) -/
theorem C21_evicted :
    let c : Cache := [(1, ⟨List.replicate 8 7, 0, 5⟩), (2, ⟨List.replicate 8 7, 0, 6⟩)]
    find (session 10 c 3 .w [.write [1, 2, 3]]).2 3 = none := by
  decide

/-- Sessions allowed by the refinement theorem. -/
example : ReadWrite (fun _ => none)
    [(0, .w, [.write [1, 2, 3], .seek 5, .write [4], .truncate 4]), (0, .r, [.seek 1, .read none, .tell])] ∧
    (rsessions (fun _ => none)
      [(0, .w, [.write [1, 2, 3], .seek 5, .write [4], .truncate 4]), (0, .r, [.seek 1, .read none, .tell])]).map
        Prod.fst = some [[.num 3, .unit, .num 1, .num 4], [.unit, .bytes [2, 3, 0], .num 4]] := by
  refine ⟨?_, by decide⟩
  refine ⟨by decide, ⟨trivial, trivial, trivial, by decide, trivial⟩, ?_⟩
  intro o fs1 _
  exact ⟨by decide, ⟨trivial, trivial, trivial, trivial⟩, fun _ _ _ => trivial⟩

example : Same [] (fun _ => none) := fun _ => rfl

end Verif.MemoryFile

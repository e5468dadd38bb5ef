import Verif.Lemmas.LdpGroupIds
import Verif.Lemmas.PyNum
/-!
# C98: consecutive reads of TBX and COR files
-/
set_option linter.unusedSectionVars false

namespace Verif.LdpGroup
open Verif.Buffer
open Verif.Ldp (tagOf tagOf_inj tagOf_lt tagOf_succ)

variable {K D : Type} [DecidableEq K] [DecidableEq D]

theorem stepCount_pos {rd : Reader K D} {rn : K → Nat} {len : Nat} {t0 : Int} {fs : List (Fr K D Payload)}
    (hx : Ctx rd rn len t0 fs) : 0 < stepCount t0 rd.skip 0 fs := by
  cases fs with
  | nil => exact absurd rfl hx.reg.nonempty
  | cons f l =>
    obtain ⟨k, hk, hk0, _, _⟩ := hx.reg.order
    have : k = 0 := by omega
    subst this
    have hsp := stepCount_spec hx.skip (f :: l) 0 hx.reg.order
    have := (hsp 0).mpr (Or.inr ⟨f, List.mem_cons_self, hk⟩)
    omega

theorem opened_inv {rd : Reader K D} {rn : K → Nat} {len : Nat} {t0 : Int} {fs : List (Fr K D Payload)}
    (hx : Ctx rd rn len t0 fs) (hg : 0 < t0) (items : List (Item K D)) (hf : framesOf items = fs) (hfine : Fine rd 0 items)
    (tail : Nat) : CInv rd rn len t0 fs 0 (opened rd items tail) := by
  have hseg := hx.seg
  have h0 := stepCount_pos hx
  refine ⟨⟨[], fs, 0, rfl, hf, ⟨Nat.le_refl _, hx.reg.order, by simp, by omega, ?_, ?_, ?_⟩, by omega⟩, hfine, ?_, by omega⟩
  · intro f hfm
    obtain ⟨k, hk⟩ := inOrder_late fs 0 hx.reg.order f hfm
    exact ⟨k, by omega, hk.1⟩
  · simp [opened, init, bufAt]
  · refine ⟨0, [], init_done _ (by omega) _, ?_⟩
    simpa [tagOf] using hg
  · simp [opened, ttAt]

/-! ## COR -/

theorem corReader_ctx {n nseg len : Nat} {chans : List Nat} {skip t0 : Int} {ig : Bool}
    {fs : List (Fr (Nat × Nat × Nat) (Nat × Nat) Payload)} (hn : 1 ≤ n) (hc : chans.Nodup) (hc' : chans ≠ [])
    (hs : 2 ≤ nseg) (hk : 0 < skip) (hr : Regular (corIds (List.range' 1 n) chans) nseg len t0 skip fs) :
    Ctx (corReader n chans nseg skip ig) (corPlace n chans) len t0 fs := by
  have hok := corCfg_ok n chans hc nseg false
  refine ⟨hok, rfl, hs, fun x hx => corRow_eq hx, ?_, hk, ?_, ?_, hr⟩
  · exact nodup_map_of_inj hok.nodup (fun x hx y hy e => corPlace_inj hx hy e)
  · show 1 ≤ chans.length * (n * (n + 1) / 2)
    have h1 : 1 ≤ chans.length := List.length_pos_iff.mpr hc'
    have h2 : 1 ≤ n * (n + 1) / 2 := by
      have : 1 * 2 ≤ n * (n + 1) := Nat.mul_le_mul hn (by omega)
      omega
    have := Nat.mul_le_mul h1 h2
    omega
  · intro st sz h
    cases h

theorem reads_inv {rd : Reader K D} {rn : K → Nat} {len : Nat} {t0 : Int} {fs : List (Fr K D Payload)}
    (hx : Ctx rd rn len t0 fs) (fcs : List Nat)
    (hfc : ∀ n ∈ fcs, 1 ≤ n) : ∀ (a : Nat) (s : RS K D), CInv rd rn len t0 fs a s → a ≤ stepCount t0 rd.skip 0 fs →
      reads rd fcs s = expected (chunk rn rd.cfg.possible t0 rd.skip len fs) (stepCount t0 rd.skip 0 fs) (fcs.map some) a := by
  induction fcs with
  | nil => intro a s _ _; rfl
  | cons fc fcs ih =>
    intro a s h ha
    obtain ⟨h1, h2⟩ := read_inv hx (hfc fc List.mem_cons_self) h
    simp only [reads, expected, List.map_cons, Option.getD_some]
    by_cases hlt : a < stepCount t0 rd.skip 0 fs
    · obtain ⟨_, e1, e2⟩ := h1 hlt
      rw [if_pos hlt, e1, ih (fun n hn => hfc n (List.mem_cons_of_mem _ hn)) _ _ e2 (by omega)]
    · have he := h2 (by omega)
      have : read rd fc s = (s, .error .eof) := by unfold read; rw [if_pos he]
      rw [if_neg hlt, this]
      simp only
      rw [ih (fun n hn => hfc n (List.mem_cons_of_mem _ hn)) _ _ h (by omega)]

/-- For a regular COR file without damaged frames (frames missing and late frames allowed, other frames in between) every
sequence of calls returns the steps of the file one after the other, each call as many as asked for or left, the data
of each baseline and channel at their place, and after the last one every call raises `EOFError`. -/
theorem C98_cor_reads_partial (n nseg len : Nat) (chans : List Nat) (skip t0 : Int) (ig : Bool)
    (fs : List (Fr (Nat × Nat × Nat) (Nat × Nat) Payload)) (hn : 1 ≤ n) (hc : chans.Nodup) (hc' : chans ≠ [])
    (hs : 2 ≤ nseg) (hk : 0 < skip) (ht : 0 < t0) (hr : Regular (corIds (List.range' 1 n) chans) nseg len t0 skip fs)
    (items : List (Item (Nat × Nat × Nat) (Nat × Nat))) (hf : framesOf items = fs) (hsync : NoSync items) (tail : Nat)
    (fcs : List Nat) (hfc : ∀ n ∈ fcs, 1 ≤ n) :
    let rd := corReader n chans nseg skip ig
    reads rd fcs (opened rd items tail) =
      expected (chunk (corPlace n chans) (corIds (List.range' 1 n) chans) t0 skip len fs) (stepCount t0 skip 0 fs)
        (fcs.map some) 0 := by
  intro rd
  have hx : Ctx rd (corPlace n chans) len t0 fs := corReader_ctx hn hc hc' hs hk hr
  have hfine : Fine rd 0 items := ⟨fun _ => noSync_calm items hsync 0, fun _ => hsync⟩
  exact reads_inv hx fcs hfc 0 _ (opened_inv hx ht items hf hfine tail) (Nat.zero_le _)

/-- The place of a baseline in the data, in closed form. -/
theorem C98_baseline_place (n i j : Nat) (hi : 1 ≤ i) (hij : i ≤ j) (hj : j ≤ n) :
    (pairs n).idxOf? (i, j) = some (baselinePlace n i j) ∧
      2 * baselinePlace n i j + (i - 1) * (i - 2) = 2 * n * (i - 1) + 2 * (j - i) := by
  refine ⟨by rw [idxOf?_of_mem (mem_pairs.mpr ⟨hi, hij, hj⟩), idxOf_pairs hi hij hj], ?_⟩
  have hsum : ∀ m, m ≤ n → 2 * ((List.range m).map (fun k => n - k)).sum + m * (m - 1) = 2 * n * m := by
    intro m
    induction m with
    | zero => intro _; simp
    | succ m ih =>
      intro hm
      have := ih (by omega)
      rw [List.range_succ, List.map_append, List.sum_append]
      simp only [List.map_cons, List.map_nil, List.sum_cons, List.sum_nil, Nat.add_sub_cancel]
      cases m with
      | zero => simp
      | succ m =>
        simp only [Nat.add_sub_cancel] at this
        have e : n - (m + 1) + (m + 1) = n := by omega
        generalize n - (m + 1) = d at e ⊢
        subst e
        grind
  have := hsum (i - 1) (by omega)
  unfold baselinePlace
  rw [show i - 2 = i - 1 - 1 by omega]
  omega

/-! ## TBX -/

theorem tbxReader_ctx {nseg len : Nat} {mapper : List Nat} {skip size t0 : Int} {ci8 ig : Bool}
    {fs : List (Fr Nat Nat Payload)} (hm : mapper.Nodup) (hm' : mapper ≠ []) (hs : 2 ≤ nseg) (hk : 0 < skip) (hk' : skip ≤ 8192)
    (hr : Regular mapper nseg len t0 skip fs) :
    Ctx (tbxReader mapper nseg skip size ci8 ig) (fun c => mapper.idxOf c) len t0 fs := by
  refine ⟨tbxCfg_ok mapper hm nseg false, rfl, hs, fun x hx => ⟨idxOf?_of_mem hx, List.idxOf_lt_length_of_mem hx⟩, ?_, hk, ?_, ?_, hr⟩
  · exact nodup_map_of_inj hm (fun x hx y hy e => idxOf_inj hx hy e)
  · exact List.length_pos_iff.mpr hm'
  · intro st sz h
    simp only [tbxReader, Option.some.injEq, Prod.mk.injEq] at h
    show skip ≤ st
    omega

/-- The description of a TBX file of `items` whose first frame is `p0` bytes into the file, with `tail` bytes at the end. -/
structure Described (t : Tbx) (items : List (Item Nat Nat)) (p0 tail : Nat) : Prop where
  size : t.size = p0 + items.length * t.frameSize + tail
  small : p0 + tail < t.frameSize
  nframe : t.nframe = (t.size - p0) / t.frameSize
  noSync : NoSync items

/-- What the file position says: `rem` is the rest of the file. -/
theorem maxCount_eq {t : Tbx} {items : List (Item Nat Nat)} {p0 tail : Nat} (hd : Described t items p0 tail) {s : RS Nat Nat}
    (hs : s.rem <:+ items) (ht : s.tail ≤ tail) :
    maxCount t s = ((s.rem.length / t.rd.per + s.buf.buf.length : Nat) : Int) := by
  have hb := noSync_bytes t.frameSize s.rem (noSync_suffix hd.noSync hs)
  have hpos : 0 < t.frameSize := by have := hd.small; omega
  have hl := hs.length_le
  obtain ⟨u, hu⟩ := hs
  have hlen : items.length = u.length + s.rem.length := by rw [← hu, List.length_append]
  have hmul : items.length * t.frameSize = u.length * t.frameSize + s.rem.length * t.frameSize := by rw [hlen, Nat.add_mul]
  have h1 : tell t s = t.frameSize * u.length + (p0 + tail - s.tail) := by
    unfold tell
    rw [hb, hd.size, hmul, Nat.mul_comm t.frameSize]
    omega
  have h2 : tell t s / t.frameSize = u.length := by
    rw [h1, Nat.mul_add_div hpos, Nat.div_eq_of_lt (by have := hd.small; omega)]
    omega
  have h3 : t.nframe = items.length := by
    rw [hd.nframe, hd.size, show p0 + items.length * t.frameSize + tail - p0 = t.frameSize * items.length + tail by
      rw [Nat.mul_comm t.frameSize]; omega, Nat.mul_add_div hpos, Nat.div_eq_of_lt (by have := hd.small; omega)]
    omega
  unfold maxCount
  rw [h2, h3, show ((items.length : Nat) : Int) - (u.length : Nat) = ((s.rem.length : Nat) : Int) by omega]
  omega

/-- Invariant of a TBX file between calls. -/
structure TInv (t : Tbx) (rn : Nat → Nat) (len : Nat) (t0 : Int) (fs : List (Fr Nat Nat Payload)) (items : List (Item Nat Nat))
    (tail : Nat) (a : Nat) (s : RS Nat Nat) : Prop where
  inv : CInv t.rd rn len t0 fs a s
  rem : s.rem <:+ items
  tail : s.tail ≤ tail

/-- One call on a regular TBX file in which something is left. -/
theorem tbxRead_inv {t : Tbx} {rn : Nat → Nat} {len : Nat} {t0 : Int} {fs : List (Fr Nat Nat Payload)}
    {items : List (Item Nat Nat)} {p0 tail : Nat} (hx : Ctx t.rd rn len t0 fs) (hd : Described t items p0 tail)
    {a : Nat} {s : RS Nat Nat} (h : TInv t rn len t0 fs items tail a s) (ha : a < stepCount t0 t.rd.skip 0 fs)
    (hM : 1 ≤ s.rem.length / t.rd.per + s.buf.buf.length) (q : Option Int) :
    ∃ fc : Nat, (fc : Int) = tbxCount t q s ∧ 1 ≤ fc ∧
    (tbxRead t q s).2 = .ok (chunk rn t.rd.cfg.possible t0 t.rd.skip len fs a (min fc (stepCount t0 t.rd.skip 0 fs - a))) ∧
    TInv t rn len t0 fs items tail (a + min fc (stepCount t0 t.rd.skip 0 fs - a)) (tbxRead t q s).1 := by
  have hmax := maxCount_eq hd h.rem h.tail
  have hc : 1 ≤ tbxCount t q s := by unfold tbxCount; rw [hmax]; omega
  refine ⟨(tbxCount t q s).toNat, by omega, by omega, ?_⟩
  obtain ⟨h1, _⟩ := read_inv hx (fc := (tbxCount t q s).toNat) (by omega) h.inv
  obtain ⟨e0, e1, e2⟩ := h1 ha
  have hsuf := read_suffix t.rd (tbxCount t q s).toNat s
  unfold tbxRead
  rw [if_neg e0, if_neg (by omega)]
  exact ⟨e1, e2, hsuf.1.trans h.rem, Nat.le_trans hsuf.2 h.tail⟩

theorem tbx_buf {t : Tbx} {rn : Nat → Nat} {len : Nat} {t0 : Int} {fs : List (Fr Nat Nat Payload)} {a : Nat} {s : RS Nat Nat}
    (h : CInv t.rd rn len t0 fs a s) : ∃ pre post m, fs = pre ++ post ∧ framesOf s.rem = post ∧
      Inv t.rd.cfg.nseg t0 t.rd.skip pre post a m s.buf ∧ (0 < a → a < m ∨ a = stepCount t0 t.rd.skip 0 fs) ∧
      s.buf.buf.length = m - a := by
  obtain ⟨pre, post, m, h1, h2, h3, h4⟩ := h.ex
  exact ⟨pre, post, m, h1, h2, h3, h4, by rw [h3.buf, bufAt_length]⟩

/-- The duration as a number of steps: at least one. -/
def asked (q : Option Int) : Option Nat := q.map (fun q => (max q 1).toNat)

theorem tbxReads_inv {t : Tbx} {rn : Nat → Nat} {len : Nat} {t0 : Int} {fs : List (Fr Nat Nat Payload)}
    {items : List (Item Nat Nat)} {p0 tail : Nat} (hx : Ctx t.rd rn len t0 fs) (hd : Described t items p0 tail)
    (hp : t.rd.per = t.rd.cfg.possible.length) (hcomp : Complete t.rd.cfg.possible t0 t.rd.skip fs)
    (qs : List (Option Int)) : ∀ (a : Nat) (s : RS Nat Nat), TInv t rn len t0 fs items tail a s →
      a ≤ stepCount t0 t.rd.skip 0 fs →
      tbxReads t qs s = expected (chunk rn t.rd.cfg.possible t0 t.rd.skip len fs) (stepCount t0 t.rd.skip 0 fs) (qs.map asked) a := by
  induction qs with
  | nil => intro a s _ _; rfl
  | cons q qs ih =>
    intro a s h ha
    simp only [tbxReads, expected, List.map_cons]
    by_cases hlt : a < stepCount t0 t.rd.skip 0 fs
    · obtain ⟨pre, post, m, b1, b2, b3, b4, b5⟩ := tbx_buf h.inv
      have hpos := hx.batch
      have hcount := rest_count hx.skip hx.ok.nodup hcomp b1 b3
      rw [← b2, ← hp] at hcount
      have hfl := framesOf_length s.rem
      have hdiv : stepCount t0 t.rd.skip 0 fs - m ≤ s.rem.length / t.rd.per := by
        rw [Nat.le_div_iff_mul_le hpos]; omega
      have hle := b3.le
      have hml := (begun_le hx b1 b3).1
      have hM : stepCount t0 t.rd.skip 0 fs - a ≤ s.rem.length / t.rd.per + s.buf.buf.length := by rw [b5]; omega
      obtain ⟨fc, f1, f2, f3, f4⟩ := tbxRead_inv hx hd h hlt (by omega) q
      have hmax := maxCount_eq hd h.rem h.tail
      have e : min fc (stepCount t0 t.rd.skip 0 fs - a) =
          min ((asked q).getD (stepCount t0 t.rd.skip 0 fs - a)) (stepCount t0 t.rd.skip 0 fs - a) := by
        unfold tbxCount at f1
        rw [hmax] at f1
        cases q with
        | none => simp only [asked, Option.map_none, Option.getD_none] at f1 ⊢; omega
        | some q => simp only [asked, Option.map_some, Option.getD_some] at f1 ⊢; omega
      rw [e] at f3 f4
      rw [if_pos hlt, f3, ih _ _ f4 (by omega)]
    · have he := (read_inv hx (fc := 1) (Nat.le_refl _) h.inv).2 (by omega)
      have : tbxRead t q s = (s, .error .eof) := by unfold tbxRead; rw [if_pos he]
      rw [if_neg hlt, this]
      simp only
      rw [ih _ _ h (by omega)]

/-- For a complete TBX file every sequence of calls (also without a duration) returns the steps of the file one after the
other, each call as many as asked for or left, the data of each frame at the place of its channel, and after the last
one every call raises `EOFError`.  The file has no damaged frame; late frames, other frames in between, less than a
frame before the first and after the last one are allowed. -/
theorem C98_tbx_reads_partial (nseg len : Nat) (mapper : List Nat) (skip size t0 : Int) (ci8 ig : Bool)
    (fs : List (Fr Nat Nat Payload)) (hm : mapper.Nodup) (hm' : mapper ≠ []) (hs : 2 ≤ nseg) (hk : 0 < skip)
    (hk' : skip ≤ 8192) (ht : 0 < t0) (hr : Regular mapper nseg len t0 skip fs) (hcomp : Complete mapper t0 skip fs)
    (items : List (Item Nat Nat)) (hf : framesOf items = fs) (p0 tail : Nat) (t : Tbx)
    (hrd : t.rd = tbxReader mapper nseg skip size ci8 ig) (hd : Described t items p0 tail) (qs : List (Option Int)) :
    tbxReads t qs (opened t.rd items tail) =
      expected (chunk (fun c => mapper.idxOf c) mapper t0 skip len fs) (stepCount t0 skip 0 fs) (qs.map asked) 0 := by
  have hx : Ctx t.rd (fun c => mapper.idxOf c) len t0 fs := by rw [hrd]; exact tbxReader_ctx hm hm' hs hk hk' hr
  have hfine : Fine t.rd 0 items := ⟨fun _ => noSync_calm items hd.noSync 0, fun _ => hd.noSync⟩
  have h0 := opened_inv hx ht items hf hfine tail
  have hcomp' : Complete t.rd.cfg.possible t0 t.rd.skip fs := by rw [hrd]; exact hcomp
  have hp : t.rd.per = t.rd.cfg.possible.length := by rw [hrd]; rfl
  have := tbxReads_inv hx hd hp hcomp' qs 0 _ ⟨h0, List.suffix_refl _, Nat.le_refl _⟩ (Nat.zero_le _)
  rw [this]
  rw [hrd]
  rfl

theorem tbxReads_pieces {t : Tbx} {rn : Nat → Nat} {len : Nat} {t0 : Int} {fs : List (Fr Nat Nat Payload)}
    {items : List (Item Nat Nat)} {p0 tail : Nat} (hx : Ctx t.rd rn len t0 fs) (hd : Described t items p0 tail)
    (qs : List (Option Int)) : ∀ (a : Nat) (s : RS Nat Nat), TInv t rn len t0 fs items tail a s →
      a ≤ stepCount t0 t.rd.skip 0 fs → (a = 0 → t.rd.per ≤ s.rem.length) →
      Pieces (chunk rn t.rd.cfg.possible t0 t.rd.skip len fs) (stepCount t0 t.rd.skip 0 fs) (qs.map asked) (tbxReads t qs s) a := by
  induction qs with
  | nil => intro a s _ _ _; trivial
  | cons q qs ih =>
    intro a s h ha hfirst
    simp only [tbxReads, Pieces, List.map_cons]
    by_cases hlt : a < stepCount t0 t.rd.skip 0 fs
    · left
      refine ⟨hlt, ?_⟩
      obtain ⟨pre, post, m, b1, b2, b3, b4, b5⟩ := tbx_buf h.inv
      have hpos := hx.batch
      have hM : 1 ≤ s.rem.length / t.rd.per + s.buf.buf.length := by
        by_cases h0 : a = 0
        · have : 1 ≤ s.rem.length / t.rd.per := by
            rw [Nat.le_div_iff_mul_le hpos]; have := hfirst h0; omega
          omega
        · have := b4 (by omega)
          have := Nat.zero_le (s.rem.length / t.rd.per)
          generalize s.rem.length / t.rd.per = e at *
          omega
      obtain ⟨fc, f1, f2, f3, f4⟩ := tbxRead_inv hx hd h hlt hM q
      refine ⟨min fc (stepCount t0 t.rd.skip 0 fs - a), by omega, ?_, by omega, f3, ?_⟩
      · unfold tbxCount at f1
        cases q with
        | none => simp only [asked, Option.map_none, Option.getD_none] at f1 ⊢; omega
        | some q => simp only [asked, Option.map_some, Option.getD_some] at f1 ⊢; omega
      · exact ih _ _ f4 (by omega) (by omega)
    · right
      have he := (read_inv hx (fc := 1) (Nat.le_refl _) h.inv).2 (by omega)
      have : tbxRead t q s = (s, .error .eof) := by unfold tbxRead; rw [if_pos he]
      rw [this]
      refine ⟨by omega, rfl, ih _ _ h ha hfirst⟩

/-- With frames missing anywhere, as long as the file has one step's worth of frames, every call still gives at least one
step and at most as many as asked for, the pieces following one another to the end of the file. -/
theorem C98_tbx_pieces_partial (nseg len : Nat) (mapper : List Nat) (skip size t0 : Int) (ci8 ig : Bool)
    (fs : List (Fr Nat Nat Payload)) (hm : mapper.Nodup) (hm' : mapper ≠ []) (hs : 2 ≤ nseg) (hk : 0 < skip)
    (hk' : skip ≤ 8192) (ht : 0 < t0) (hr : Regular mapper nseg len t0 skip fs)
    (items : List (Item Nat Nat)) (hf : framesOf items = fs) (p0 tail : Nat) (t : Tbx)
    (hrd : t.rd = tbxReader mapper nseg skip size ci8 ig) (hd : Described t items p0 tail)
    (hmany : mapper.length ≤ items.length) (qs : List (Option Int)) :
    Pieces (chunk (fun c => mapper.idxOf c) mapper t0 skip len fs) (stepCount t0 skip 0 fs) (qs.map asked)
      (tbxReads t qs (opened t.rd items tail)) 0 := by
  have hx : Ctx t.rd (fun c => mapper.idxOf c) len t0 fs := by rw [hrd]; exact tbxReader_ctx hm hm' hs hk hk' hr
  have hfine : Fine t.rd 0 items := ⟨fun _ => noSync_calm items hd.noSync 0, fun _ => hd.noSync⟩
  have h0 := opened_inv hx ht items hf hfine tail
  have := tbxReads_pieces hx hd qs 0 _ ⟨h0, List.suffix_refl _, Nat.le_refl _⟩ (Nat.zero_le _)
    (fun _ => by rw [hrd]; exact hmany)
  rw [hrd] at this ⊢
  exact this

/-- Damaged places, up to 40000 in a row, do not matter to what comes out of the file: with a number of steps that does not
exceed what is counted as left, a call gives the next steps. -/
theorem C98_tbx_damaged (nseg len : Nat) (mapper : List Nat) (skip size t0 : Int) (ig : Bool)
    (fs : List (Fr Nat Nat Payload)) (hm : mapper.Nodup) (hm' : mapper ≠ []) (hs : 2 ≤ nseg) (hk : 0 < skip)
    (hk' : skip ≤ 8192) (ht : 0 < t0) (hr : Regular mapper nseg len t0 skip fs)
    (items : List (Item Nat Nat)) (hf : framesOf items = fs) (hcalm : Calm 40000 0 items) (tail : Nat)
    (fcs : List Nat) (hfc : ∀ n ∈ fcs, 1 ≤ n) :
    let rd := tbxReader mapper nseg skip size false ig
    reads rd fcs (opened rd items tail) =
      expected (chunk (fun c => mapper.idxOf c) mapper t0 skip len fs) (stepCount t0 skip 0 fs) (fcs.map some) 0 := by
  intro rd
  have hx : Ctx rd (fun c => mapper.idxOf c) len t0 fs := tbxReader_ctx hm hm' hs hk hk' hr
  exact reads_inv hx fcs hfc 0 _ (opened_inv hx ht items hf ⟨fun _ => hcalm, fun h => absurd rfl h⟩ tail) (Nat.zero_le _)

end Verif.LdpGroup

import Verif.Lemmas.Uart
import Verif.Props.Calibration
import Verif.Lemmas.Recorder
import Mathlib.Tactic.FieldSimp

/-!
# C46, C47, C48: the UART decoder

The line: a byte is sent as start bit (low), its `L` data bits with the lowest first, and a stop bit (high), followed by an idle phase (high) of any length.
The decoder sees the edges of this line.
-/

namespace Verif.Props
open Verif.Py Verif.Model

/-! ## Specification -/

/-- A part of the line with constant level: its length in bit times, whether it consists of stop bits and idle time only, and the byte whose start bit it begins with. -/
structure Seg where
  level : Bool
  dur : ℚ
  idle : Bool := false
  byte : Option ℕ := none
deriving DecidableEq

/-- What the sender does for a byte followed by `gap` bit times of silence. -/
def sendByte (L : ℕ) (m : ℕ × ℚ) : List Seg :=
  { level := false, dur := 1, byte := some m.1 } :: (List.range L).map (fun i => { level := m.1.testBit i, dur := 1 }) ++
    [{ level := true, dur := 1 + m.2, idle := true }]

/-- Neighbours of equal level can not be told apart on a line. -/
def merge : List Seg → List Seg
  | [] => []
  | s :: l =>
    match merge l with
    | [] => [s]
    | t :: r => if s.level = t.level then ⟨s.level, s.dur + t.dur, s.idle && t.idle, s.byte⟩ :: r else s :: t :: r

/-- The line while a message is sent. -/
def line (L : ℕ) (msg : List (ℕ × ℚ)) : List Seg := merge (msg.flatMap (sendByte L))

/-- An event shows a part of the line: same level, and a duration that is off by at most a tenth of a bit time, unless the line is idle. -/
def Shows (e : UartEv) (s : Seg) : Prop := e.high = s.level ∧ (s.idle = true ∨ |e.steps - s.dur| ≤ 1/10)

/-- The events show the line; the last phase of silence may be open. -/
def Observes (evs : List UartEv) (segs : List Seg) : Prop := ∃ tail, tail.length ≤ 1 ∧ List.Forall₂ Shows (evs ++ tail) segs

/-- Time of every start bit with the byte sent, where `keep` selects bytes. -/
def received (keep : ℕ → Bool) (evs : List UartEv) (segs : List Seg) : List (Option ℚ × List ℕ) :=
  (evs.zip segs).filterMap (fun p => p.2.byte.bind (fun b => if keep b then some (some p.1.time, [b]) else none))

/-! ## The line consists of the runs of the frames -/

theorem merge_head (l : List Seg) : (merge l).head?.map (·.level) = l.head?.map (·.level) := by
  cases l with
  | nil => rfl
  | cons s l =>
    rw [merge]
    cases merge l with
    | nil => rfl
    | cons t r => simp only; split_ifs <;> rfl

theorem merge_append : ∀ (a b : List Seg), (∀ s ∈ a.getLast?, ∀ t ∈ b.head?, s.level ≠ t.level) → merge (a ++ b) = merge a ++ merge b
  | [], b, _ => rfl
  | [s], b, h => by
    rw [List.cons_append, List.nil_append, merge, merge, merge]
    have hh := merge_head b
    cases hb : merge b with
    | nil => rfl
    | cons t r =>
      rw [hb] at hh
      cases b with
      | nil => cases hb
      | cons t' b' =>
        simp only [List.head?_cons, Option.map_some, Option.some.injEq] at hh
        have := h s (by simp) t' (by simp)
        simp only
        rw [if_neg (by rw [hh]; exact this)]
        rfl
  | s :: s' :: a, b, h => by
    have ih := merge_append (s' :: a) b (by intro x hx; apply h; simpa [List.getLast?_cons_cons] using hx)
    rw [List.cons_append, merge, ih]
    conv_rhs => rw [merge]
    have hne : merge (s' :: a) ≠ [] := by
      intro hc
      have := merge_head (s' :: a)
      rw [hc] at this
      cases this
    cases hm : merge (s' :: a) with
    | nil => exact absurd hm hne
    | cons t r =>
      simp only [List.cons_append]
      split_ifs <;> simp

/-- A run as part of the line. -/
def runSeg (byte : Option ℕ) (q : Bool × ℕ) : Seg := ⟨q.1, q.2, false, byte⟩

theorem merge_bits : ∀ (l : List Bool), merge (l.map (fun b => (⟨b, 1, false, none⟩ : Seg))) = (rle l).map (runSeg none)
  | [] => rfl
  | b :: l => by
    rw [List.map_cons, merge, merge_bits l, rle]
    cases h : rle l with
    | nil => simp [runSeg]
    | cons q t =>
      obtain ⟨c, n⟩ := q
      simp only [List.map_cons, runSeg]
      split_ifs with hb
      · subst hb
        simp only [List.map_cons, runSeg, Bool.and_false]
        congr 2
        push_cast; ring
      · simp [runSeg]

/-- Runs of a frame: the first one carries the byte. -/
def frameSegs (L b : ℕ) : List Seg :=
  match rle (false :: dataBits L b) with
  | [] => []
  | q :: t => runSeg (some b) q :: t.map (runSeg none)

theorem merge_frame (L b : ℕ) :
    merge ((⟨false, 1, false, some b⟩ : Seg) :: (List.range L).map (fun i => (⟨b.testBit i, 1, false, none⟩ : Seg))) = frameSegs L b := by
  have hm : (List.range L).map (fun i => (⟨b.testBit i, 1, false, none⟩ : Seg)) = (dataBits L b).map (fun b => (⟨b, 1, false, none⟩ : Seg)) := by
    rw [dataBits, List.map_map]; rfl
  rw [merge, hm, merge_bits, frameSegs, rle]
  cases h : rle (dataBits L b) with
  | nil => simp [runSeg]
  | cons q t =>
    obtain ⟨c, n⟩ := q
    simp only [List.map_cons, runSeg]
    split_ifs with hb
    · subst hb
      simp only [Bool.and_false]
      congr 2
      push_cast; ring
    · simp [runSeg]

theorem merge_sendByte {L b : ℕ} (hb : b < 2^(L - 1)) (hL : 1 ≤ L) (g : ℚ) :
    merge (sendByte L (b, g)) = frameSegs L b ++ [⟨true, 1 + g, true, none⟩] := by
  unfold sendByte
  rw [merge_append, merge_frame]
  · rfl
  · intro s hs t ht
    simp only [List.head?_cons, Option.mem_def, Option.some.injEq] at ht
    subst ht
    obtain ⟨M, rfl⟩ : ∃ M, L = M + 1 := ⟨L - 1, by omega⟩
    rw [List.range_succ, List.map_append, List.map_cons, List.map_nil, ← List.cons_append, List.getLast?_concat] at hs
    simp only [Option.mem_def, Option.some.injEq] at hs
    subst hs
    simp only
    rw [Nat.testBit_lt_two_pow (by simpa using hb)]
    simp

theorem line_eq {L : ℕ} (hL : 1 ≤ L) : ∀ (msg : List (ℕ × ℚ)), (∀ m ∈ msg, m.1 < 2^(L - 1)) →
    line L msg = msg.flatMap (fun m => frameSegs L m.1 ++ [⟨true, 1 + m.2, true, none⟩])
  | [], _ => rfl
  | m :: msg, h => by
    have ih := line_eq hL msg (fun x hx => h x (List.mem_cons_of_mem _ hx))
    rw [line, List.flatMap_cons, merge_append, List.flatMap_cons, ← ih, merge_sendByte (h m (by simp)) hL]
    · rfl
    · intro s hs t ht
      have h1 : s.level = true := by
        unfold sendByte at hs
        rw [List.getLast?_append] at hs
        simp at hs
        rw [← hs]
      have h2 : t.level = false := by
        cases msg with
        | nil => simp at ht
        | cons m' msg' =>
          simp only [List.flatMap_cons, sendByte, List.cons_append, List.head?_cons, Option.mem_def, Option.some.injEq] at ht
          rw [← ht]
      rw [h1, h2]; simp

/-! ## Decoding -/

theorem near_runs : ∀ (evs : List UartEv) (rs : List (Bool × ℕ)) (o : Option ℕ), List.Forall₂ Shows evs (rs.map (runSeg o)) → List.Forall₂ NearN evs rs
  | [], [], _, _ => .nil
  | [], q :: rs, _, h => by cases h
  | e :: evs, [], _, h => by cases h
  | e :: evs, q :: rs, o, h => by
    rw [List.map_cons] at h
    cases h with
    | cons h1 h2 =>
      refine .cons ⟨h1.1, ?_⟩ (near_runs evs rs o h2)
      rcases h1.2 with h | h
      · cases h
      · exact h

theorem shows_frame {L b : ℕ} {evs : List UartEv} (h : List.Forall₂ Shows evs (frameSegs L b)) :
    List.Forall₂ NearN evs (rle (false :: dataBits L b)) := by
  unfold frameSegs at h
  cases hr : rle (false :: dataBits L b) with
  | nil => exact absurd hr rle_ne_nil
  | cons q t =>
    rw [hr] at h
    cases h with
    | @cons e _ es _ h1 h2 =>
      refine .cons ⟨h1.1, ?_⟩ (near_runs es t none h2)
      rcases h1.2 with h | h
      · cases h
      · exact h

theorem received_frame {L b : ℕ} (keep : ℕ → Bool) {e : UartEv} {es : List UartEv} (h : List.Forall₂ Shows (e :: es) (frameSegs L b)) :
    received keep (e :: es) (frameSegs L b) = if keep b then [(some e.time, [b])] else [] := by
  unfold frameSegs at h ⊢
  cases hr : rle (false :: dataBits L b) with
  | nil => exact absurd hr rle_ne_nil
  | cons q t =>
    simp only [received, List.zip_cons_cons]
    have : List.filterMap (fun p : UartEv × Seg => p.2.byte.bind (fun b => if keep b then some (some p.1.time, [b]) else none)) (es.zip (t.map (runSeg none))) = [] := by
      rw [List.filterMap_eq_nil_iff]
      rintro ⟨x, y⟩ hxy
      have := (List.of_mem_zip hxy).2
      rw [List.mem_map] at this
      obtain ⟨z, -, rfl⟩ := this
      rfl
    rw [List.filterMap_cons, this]
    simp only [runSeg, Option.bind_some]
    split_ifs <;> rfl

theorem received_append (keep : ℕ → Bool) {a b : List UartEv} {s t : List Seg} (h : a.length = s.length) :
    received keep (a ++ b) (s ++ t) = received keep a s ++ received keep b t := by
  rw [received, List.zip_append h, List.filterMap_append]; rfl

theorem rle_zeros : ∀ n : ℕ, rle (false :: List.replicate n false) = [(false, n + 1)]
  | 0 => rfl
  | n + 1 => by rw [rle, List.replicate_succ, rle_zeros n]; simp

theorem loop_zero {fl : ℚ → ℚ} {L : ℕ} (rest : List UartEv) (e : UartEv) (es : List UartEv)
    (hobs : List.Forall₂ NearN (e :: es) (rle (false :: dataBits L 0))) :
    uartLoop fl L .idle ((e :: es) ++ rest) = uartLoop fl L .idle rest := by
  have h0 : dataBits L 0 = List.replicate L false := by
    unfold dataBits
    rw [List.eq_replicate_iff]
    simp
  rw [h0, rle_zeros] at hobs
  cases hobs with
  | cons he hes =>
    cases hes
    have hab := abs_le.mp he.2
    have hs : uartStep fl L .idle e = .ok (.idle, []) := by
      unfold uartStep
      have h1 : e.high = false := he.1
      rw [if_pos (by push_cast at hab ⊢; linarith [hab.1]), h1]
      rfl
    rw [List.cons_append, List.nil_append, loop_cons hs]
    cases uartLoop fl L .idle rest <;> rfl

/-- The loop over a message: zeros vanish, other values below `2^(L-1)` come through. -/
theorem loop_msg {fl : ℚ → ℚ} (hf : Rounding fl) {L : ℕ} (hL1 : 1 ≤ L) (hL : L ≤ 2^40) : ∀ (msg : List (ℕ × ℚ)) (evs : List UartEv),
    (∀ m ∈ msg, m.1 < 2^(L - 1) ∧ m.1 < 0x110000) → Observes evs (line L msg) →
    uartLoop fl L .idle evs = .ok (received (fun b => b != 0) evs (line L msg))
  | [], evs, _, hobs => by
    obtain ⟨tail, -, h⟩ := hobs
    cases he : evs ++ tail with
    | nil =>
      rw [List.append_eq_nil_iff] at he
      rw [he.1]; rfl
    | cons x y => rw [he] at h; cases h
  | m :: msg, evs, hm, hobs => by
    have hm' : ∀ x ∈ msg, x.1 < 2^(L - 1) ∧ x.1 < 0x110000 := fun x hx => hm x (List.mem_cons_of_mem _ hx)
    obtain ⟨b, g⟩ := m
    obtain ⟨hb, hbc⟩ := hm (b, g) (by simp)
    have hline : line L ((b, g) :: msg) = frameSegs L b ++ (⟨true, 1 + g, true, none⟩ :: line L msg) := by
      rw [line_eq hL1 _ (fun x hx => (hm x hx).1), line_eq hL1 _ (fun x hx => (hm' x hx).1), List.flatMap_cons]
      simp
    obtain ⟨tail, htl, h⟩ := hobs
    rw [hline] at h ⊢
    -- split the frame off
    obtain ⟨f, rest, hsplit, hf1, hrest⟩ := forall₂_split _ _ _ h
    have hlen := hf1.length_eq
    have hfne : f ≠ [] := by
      rintro rfl
      cases hfs : frameSegs L b with
      | nil =>
        unfold frameSegs at hfs
        cases hr : rle (false :: dataBits L b) with
        | nil => exact rle_ne_nil hr
        | cons q t => rw [hr] at hfs; cases hfs
      | cons x y => rw [hfs] at hlen; cases hlen
    -- the open tail is behind the frame
    obtain ⟨rest', hevs, hrt⟩ : ∃ rest', evs = f ++ rest' ∧ rest = rest' ++ tail := by
      have hrl : 1 ≤ rest.length := by rw [hrest.length_eq]; simp
      have hle : f.length ≤ evs.length := by
        have := congrArg List.length hsplit
        simp only [List.length_append] at this
        omega
      refine ⟨evs.drop f.length, ?_, ?_⟩
      · conv_lhs => rw [← List.take_append_drop f.length evs]
        congr 1
        have := congrArg (List.take f.length) hsplit
        rw [List.take_append_of_le_length hle, List.take_left] at this
        exact this
      · have := congrArg (List.drop f.length) hsplit
        rw [List.drop_append_of_le_length hle, List.drop_left] at this
        exact this.symm
    -- what follows the frame
    have hloop : uartLoop fl L .idle rest' = .ok (received (fun b => b != 0) rest' (⟨true, 1 + g, true, none⟩ :: line L msg)) := by
      rw [hrt] at hrest
      cases rest' with
      | nil => rfl
      | cons e es =>
        rw [List.cons_append] at hrest
        cases hrest with
        | cons he hes =>
          rw [loop_cons (step_idle e he.1), loop_msg hf hL1 hL msg es hm' ⟨tail, htl, hes⟩]
          rfl
    obtain ⟨e, es, rfl⟩ := List.exists_cons_of_ne_nil hfne
    rw [hevs, received_append _ hlen, received_frame _ hf1]
    by_cases hb0 : b = 0
    · subst hb0
      rw [loop_zero rest' e es (shows_frame hf1), hloop]
      rfl
    · rw [loop_frame hf hL (by omega) hb hbc rest' _ hloop e es (shows_frame hf1)]
      have : (b != 0) = true := by simpa using hb0
      rw [this]
      rfl

theorem loop_lead {fl : ℚ → ℚ} {L : ℤ} : ∀ (lead evs : List UartEv), (∀ e ∈ lead, e.high = true) → uartLoop fl L .idle (lead ++ evs) = uartLoop fl L .idle evs
  | [], _, _ => rfl
  | e :: lead, evs, h => by
    rw [List.cons_append, loop_cons (step_idle e (h e (by simp))), loop_lead lead evs (fun x hx => h x (List.mem_cons_of_mem _ hx))]
    cases uartLoop fl L .idle evs <;> rfl

/-- The bytes of what is received. -/
theorem received_bytes {L : ℕ} (hL : 1 ≤ L) (keep : ℕ → Bool) : ∀ (msg : List (ℕ × ℚ)) (evs : List UartEv), (∀ m ∈ msg, m.1 < 2^(L - 1)) →
    Observes evs (line L msg) → (received keep evs (line L msg)).map (·.2) = ((msg.map (·.1)).filter keep).map (fun b => [b])
  | [], evs, _, _ => by cases evs <;> rfl
  | m :: msg, evs, hm, hobs => by
    have hm' : ∀ x ∈ msg, x.1 < 2^(L - 1) := fun x hx => hm x (List.mem_cons_of_mem _ hx)
    obtain ⟨b, g⟩ := m
    have hline : line L ((b, g) :: msg) = frameSegs L b ++ (⟨true, 1 + g, true, none⟩ :: line L msg) := by
      rw [line_eq hL _ hm, line_eq hL _ hm', List.flatMap_cons]
      simp
    obtain ⟨tail, htl, h⟩ := hobs
    rw [hline] at h ⊢
    obtain ⟨f, rest, hsplit, hf1, hrest⟩ := forall₂_split _ _ _ h
    have hlen := hf1.length_eq
    have hfne : f ≠ [] := by
      rintro rfl
      cases hfs : frameSegs L b with
      | nil =>
        unfold frameSegs at hfs
        cases hr : rle (false :: dataBits L b) with
        | nil => exact rle_ne_nil hr
        | cons q t => rw [hr] at hfs; cases hfs
      | cons x y => rw [hfs] at hlen; cases hlen
    obtain ⟨rest', hevs, hrt⟩ : ∃ rest', evs = f ++ rest' ∧ rest = rest' ++ tail := by
      have hrl : 1 ≤ rest.length := by rw [hrest.length_eq]; simp
      have hle : f.length ≤ evs.length := by
        have := congrArg List.length hsplit
        simp only [List.length_append] at this
        omega
      refine ⟨evs.drop f.length, ?_, ?_⟩
      · conv_lhs => rw [← List.take_append_drop f.length evs]
        congr 1
        have := congrArg (List.take f.length) hsplit
        rw [List.take_append_of_le_length hle, List.take_left] at this
        exact this
      · have := congrArg (List.drop f.length) hsplit
        rw [List.drop_append_of_le_length hle, List.drop_left] at this
        exact this.symm
    obtain ⟨e, es, rfl⟩ := List.exists_cons_of_ne_nil hfne
    rw [hevs, received_append _ hlen, received_frame _ hf1, List.map_append]
    have hrec : (received keep rest' (⟨true, 1 + g, true, none⟩ :: line L msg)).map (·.2) = ((msg.map (·.1)).filter keep).map (fun b => [b]) := by
      rw [hrt] at hrest
      cases rest' with
      | nil =>
        -- only the last byte can have an open tail
        cases hrest with
        | cons _ hes =>
          have hes' := hes.length_eq
          simp only [List.nil_append, List.length_cons] at *
          have hl0 : line L msg = [] := by
            rename_i x l' _
            have : l'.length = 0 := by
              have h2 : (x :: l').length ≤ 1 := by simpa using htl
              simp at h2; simp [h2]
            rw [this] at hes'
            exact List.length_eq_zero_iff.mp hes'.symm
          cases msg with
          | nil => rfl
          | cons m' msg' =>
            rw [line_eq hL _ hm', List.flatMap_cons] at hl0
            simp at hl0
      | cons x xs =>
        rw [List.cons_append] at hrest
        cases hrest with
        | cons he hes => exact received_bytes hL keep msg xs hm' ⟨tail, htl, hes⟩
    rw [hrec, List.map_cons, List.filter_cons]
    split_ifs <;> rfl

/-- **C47, jitter and gaps (partial: values from 1 to 2^(L-1) - 1).**  However the edges of a message are displaced, as long as no distance inside a byte is off by more than a tenth of a bit time,
whatever the idle phases before, between and behind the bytes, the decoder returns the bytes in order, each with the time of its start bit. -/
theorem C47_jitter_partial {fl : ℚ → ℚ} (hf : Rounding fl) (L : ℕ) (hL : L ≤ 64) (msg : List (ℕ × ℚ)) (lead evs : List UartEv) (hne : msg ≠ [])
    (hm : ∀ m ∈ msg, 1 ≤ m.1 ∧ m.1 < 2^(L - 1) ∧ m.1 < 0x110000) (hlead : ∀ e ∈ lead, e.high = true) (hobs : Observes evs (line L msg)) :
    getSymbols fl L (lead ++ evs) = .ok (received (fun _ => true) evs (line L msg)) ∧
      (received (fun _ => true) evs (line L msg)).map (·.2) = msg.map (fun m => [m.1]) := by
  have hL1 : 1 ≤ L := by
    cases msg with
    | nil => exact absurd rfl hne
    | cons m msg =>
      have := hm m (by simp)
      by_contra hc
      have h0 : L - 1 = 0 := by omega
      rw [h0] at this
      simp only [pow_zero] at this
      omega
  have hkeep : received (fun b => b != 0) evs (line L msg) = received (fun _ => true) evs (line L msg) := by
    unfold received
    refine List.filterMap_congr (fun p hp => ?_)
    cases hb : p.2.byte with
    | none => rfl
    | some b =>
      have hmem : p.2 ∈ line L msg := (List.of_mem_zip (show (p.1, p.2) ∈ _ from hp)).2
      rw [line_eq hL1 _ (fun m h => (hm m h).2.1), List.mem_flatMap] at hmem
      obtain ⟨m, hmm, hin⟩ := hmem
      have hbm : b = m.1 := by
        rw [List.mem_append] at hin
        rcases hin with hin | hin
        · unfold frameSegs at hin
          cases hr : rle (false :: dataBits L m.1) with
          | nil => rw [hr] at hin; cases hin
          | cons q t =>
            rw [hr] at hin
            rcases List.mem_cons.mp hin with h | h
            · rw [h] at hb; simpa [runSeg] using hb.symm
            · obtain ⟨z, -, hz⟩ := List.mem_map.mp h
              rw [← hz] at hb; cases hb
        · rw [List.mem_singleton] at hin
          rw [hin] at hb; cases hb
      have := (hm m hmm).1
      have h2 : (b != 0) = true := by rw [bne_iff_ne]; omega
      simp only [Option.bind_some, h2]
  have hbytes := received_bytes hL1 (fun _ => true) msg evs (fun m h => (hm m h).2.1) hobs
  rw [List.filter_true, List.map_map] at hbytes
  refine ⟨?_, hbytes⟩
  unfold getSymbols
  rw [loop_lead lead evs hlead, loop_msg hf hL1 (by omega) msg evs (fun m h => (hm m h).2) hobs, hkeep]
  cases hr : received (fun _ => true) evs (line L msg) with
  | nil =>
    rw [hr] at hbytes
    cases msg with
    | nil => exact absurd rfl hne
    | cons m msg => cases hbytes
  | cons x l => rfl

/-- **C46, ideal waveforms (partial: bytes from 1 to 127).**  The events of an ideal 8N1 line, with any gaps, decode to the bytes sent. -/
theorem C46_ascii_partial {fl : ℚ → ℚ} (hf : Rounding fl) (msg : List (ℕ × ℚ)) (evs : List UartEv) (hne : msg ≠ []) (hm : ∀ m ∈ msg, 1 ≤ m.1 ∧ m.1 ≤ 127)
    (hideal : List.Forall₂ (fun e s => e.high = s.level ∧ e.steps = s.dur) evs (line 8 msg)) :
    ∃ out, getSymbols fl 8 evs = .ok out ∧ out.flatMap (·.2) = msg.map (·.1) := by
  have hobs : Observes evs (line 8 msg) := by
    refine ⟨[], by simp, ?_⟩
    rw [List.append_nil]
    refine hideal.imp (fun e s h => ⟨h.1, .inr ?_⟩)
    rw [h.2]; norm_num
  have := C47_jitter_partial hf 8 (by norm_num) msg [] evs hne
    (fun m h => ⟨(hm m h).1, by have := (hm m h).2; norm_num; omega, by have := (hm m h).2; omega⟩) (by simp) hobs
  refine ⟨_, by exact_mod_cast this.1, ?_⟩
  rw [List.flatMap_def, this.2]
  clear this hobs hideal hm hne
  induction msg with
  | nil => rfl
  | cons m msg ih => simp only [List.map_cons, List.flatten_cons, ih]; rfl

/-- "Hi" followed by a long and a short gap: the line and its decoding. -/
example : (line 8 [(72, 100), (105, 0)]).map (fun s => (s.level, s.dur)) =
    [(false, 4), (true, 1), (false, 2), (true, 1), (false, 1), (true, 101), (false, 1), (true, 1), (false, 2), (true, 1), (false, 1), (true, 2), (false, 1), (true, 1)] := by
  decide +kernel

def evsHi : List UartEv :=
  [⟨0, false, 4⟩, ⟨4, true, 11/10⟩, ⟨5, false, 19/10⟩, ⟨7, true, 1⟩, ⟨8, false, 1⟩, ⟨9, true, 101⟩, ⟨110, false, 1⟩, ⟨111, true, 1⟩, ⟨112, false, 2⟩, ⟨114, true, 1⟩, ⟨115, false, 1⟩,
    ⟨116, true, 2⟩, ⟨118, false, 1⟩]

/-- Result as a comparable value. -/
def okSome {α : Type} (x : Except PyErr α) : Option α := match x with | .ok a => some a | .error _ => none

example : okSome (getSymbols b64 8 evsHi) = some [(some 0, [72]), (some 110, [105])] := by decide +kernel

/-- **C46 violated: NUL.**  Bytes of value 0 are lost: a message decodes to its other bytes. -/
theorem C46_nul_violated {fl : ℚ → ℚ} (hf : Rounding fl) (msg : List (ℕ × ℚ)) (evs : List UartEv) (hm : ∀ m ∈ msg, m.1 ≤ 127) (hobs : Observes evs (line 8 msg)) :
    ∃ out, uartLoop fl 8 .idle evs = .ok out ∧ out.flatMap (·.2) = (msg.map (·.1)).filter (fun b => b != 0) := by
  have h1 := loop_msg hf (L := 8) (by norm_num) (by norm_num) msg evs
    (fun m h => ⟨by have := hm m h; norm_num; omega, by have := hm m h; omega⟩) hobs
  have h2 := received_bytes (L := 8) (by norm_num) (fun b => b != 0) msg evs (fun m h => by have := hm m h; norm_num; omega) hobs
  refine ⟨_, by exact_mod_cast h1, ?_⟩
  rw [List.flatMap_def, h2]
  generalize (msg.map (·.1)).filter (fun b => b != 0) = l
  induction l with
  | nil => rfl
  | cons m msg ih => simp only [List.map_cons, List.flatten_cons, ih]; rfl

/-! ### The highest bit is never set -/

/-- What holds between events. -/
def Inv (L : ℕ) (st : UartState) : Prop :=
  (st.pos = none ∧ st.symbol = 0) ∨ ∃ p : ℤ, st.pos = some p ∧ p < L ∧ 0 ≤ st.symbol ∧ st.symbol < 2^(min p.toNat (L - 1))

theorem inv_idle (L : ℕ) : Inv L .idle := .inl ⟨rfl, rfl⟩

theorem npChr_bound {s : ℤ} {c : List ℕ} {B : ℕ} (h : npChr s = .ok c) (h0 : 0 ≤ s) (h1 : s < B) : ∀ x ∈ c, x < B := by
  unfold npChr at h
  split_ifs at h
  · cases h; simp
  · cases h; intro x hx; rw [List.mem_singleton] at hx; omega

theorem inv_frame {fl : ℚ → ℚ} {L : ℕ} {p : ℤ} {st st' : UartState} {high : Bool} {steps : ℚ} {out : List (Option ℚ × List ℕ)} (hL : 1 ≤ L) (hp : p < L)
    (h0 : 0 ≤ st.symbol) (h1 : st.symbol < 2^(min p.toNat (L - 1))) (hs : 0 ≤ pyRound steps ∨ st.symbol = 0)
    (h : uartFrame fl L p st high steps = .ok (st', out)) : Inv L st' ∧ ∀ x ∈ out, ∀ c ∈ x.2, c < 2^(L - 1) := by
  unfold uartFrame at h
  cases hb : uartBits L p st.symbol high steps with
  | error e => rw [hb] at h; cases h
  | ok sym =>
    rw [hb] at h
    simp only at h
    have key : 0 ≤ sym ∧ sym < 2^(min (p + pyRound steps).toNat (L - 1)) := by
      unfold uartBits at hb
      split_ifs at hb with hc
      · simp only at hb
        split_ifs at hb with hneg
        unfold pyShl at hb
        split_ifs at hb with hsh
        simp only [Except.ok.injEq] at hb
        rw [← hb]
        set c := (pyRound (min steps (((L : ℤ) - p - 1 : ℤ) : ℚ))).toNat with hcdef
        have hp0 : 0 ≤ p := by omega
        have hc1 : (c : ℤ) ≤ pyRound steps := by
          have := pyRound_mono (min_le_left steps (((L : ℤ) - p - 1 : ℤ) : ℚ))
          omega
        have hc2 : (c : ℤ) ≤ L - p - 1 := by
          have := pyRound_le_intCast (min_le_right steps (((L : ℤ) - p - 1 : ℤ) : ℚ))
          omega
        have hmin : (min p ((L : ℤ) - 1)).toNat = p.toNat := by congr 1; omega
        have hmin2 : min p.toNat (L - 1) = p.toNat := by omega
        rw [hmin]
        rw [hmin2] at h1
        have hpow : (2:ℤ)^(p.toNat + c) ≤ 2^(min (p + pyRound steps).toNat (L - 1)) := pow_le_pow_right₀ (by norm_num) (by omega)
        have h1c : (1:ℤ) ≤ 2^c := one_le_pow₀ (by norm_num)
        have hpp : (0:ℤ) < 2^p.toNat := by positivity
        constructor
        · nlinarith
        · rw [pow_add] at hpow
          nlinarith
      · cases hb
        refine ⟨h0, ?_⟩
        rcases hs with hs | hs
        · refine lt_of_lt_of_le h1 (pow_le_pow_right₀ (by norm_num) (by omega))
        · rw [hs]; positivity
    split_ifs at h with hend
    · cases hn : npChr sym with
      | error e => rw [hn] at h; cases h
      | ok c =>
        rw [hn] at h
        cases h
        refine ⟨inv_idle L, ?_⟩
        intro x hx
        rw [List.mem_singleton] at hx
        rw [hx]
        refine npChr_bound hn key.1 ?_
        push_cast
        exact lt_of_lt_of_le key.2 (pow_le_pow_right₀ (by norm_num) (by omega))
    · cases h
      refine ⟨.inr ⟨_, rfl, ?_, key⟩, by simp⟩
      by_contra hc
      exact hend (.inl (by omega))

theorem inv_step {fl : ℚ → ℚ} {L : ℕ} {st st' : UartState} {e : UartEv} {out : List (Option ℚ × List ℕ)} (hL : 1 ≤ L) (he : 0 ≤ e.steps) (hi : Inv L st)
    (h : uartStep fl L st e = .ok (st', out)) : Inv L st' ∧ ∀ x ∈ out, ∀ c ∈ x.2, c < 2^(L - 1) := by
  unfold uartStep at h
  split_ifs at h with h1 h2 h3
  · rcases hi with ⟨hp, hs⟩ | ⟨p, hp, hpl, hs0, hs1⟩
    · rw [hp] at h; cases h; exact ⟨.inl ⟨hp, hs⟩, by simp⟩
    · rw [hp] at h
      simp only at h
      cases hn : npChr st.symbol with
      | error e => rw [hn] at h; cases h
      | ok c =>
        rw [hn] at h
        cases h
        refine ⟨inv_idle L, ?_⟩
        intro x hx
        rw [List.mem_singleton] at hx
        rw [hx]
        refine npChr_bound hn hs0 ?_
        push_cast
        exact lt_of_lt_of_le hs1 (pow_le_pow_right₀ (by norm_num) (by omega))
  · cases h; exact ⟨hi, by simp⟩
  · rcases hi with ⟨hp, hs⟩ | ⟨p, hp, hpl, hs0, hs1⟩
    · rw [hp] at h; cases h; exact ⟨.inl ⟨hp, hs⟩, by simp⟩
    · rw [hp] at h
      exact inv_frame hL hpl hs0 hs1 (.inl (pyRound_nonneg he)) h
  · rcases hi with ⟨hp, hs⟩ | ⟨p, hp, hpl, hs0, hs1⟩
    · rw [hp] at h
      exact inv_frame (st := ⟨none, st.symbol, some e.time⟩) hL (by omega) hs.ge (by simp only [hs]; positivity) (.inr hs) h
    · rw [hp] at h
      exact inv_frame hL hpl hs0 hs1 (.inl (pyRound_nonneg he)) h

theorem inv_loop {fl : ℚ → ℚ} {L : ℕ} (hL : 1 ≤ L) : ∀ (evs : List UartEv) (st : UartState) (out : List (Option ℚ × List ℕ)), (∀ e ∈ evs, 0 ≤ e.steps) → Inv L st →
    uartLoop fl L st evs = .ok out → ∀ x ∈ out, ∀ c ∈ x.2, c < 2^(L - 1)
  | [], st, out, _, _, h => by cases h; simp
  | e :: evs, st, out, he, hi, h => by
    rw [uartLoop] at h
    cases hs : uartStep fl L st e with
    | error x => rw [hs] at h; cases h
    | ok p =>
      obtain ⟨st', o⟩ := p
      rw [hs] at h
      simp only at h
      cases hr : uartLoop fl L st' evs with
      | error x => rw [hr] at h; cases h
      | ok rest =>
        rw [hr] at h
        cases h
        obtain ⟨hi', ho⟩ := inv_step hL (he e (by simp)) hi hs
        have := inv_loop hL evs st' rest (fun x hx => he x (List.mem_cons_of_mem _ hx)) hi' hr
        intro x hx
        rcases List.mem_append.mp hx with hx | hx
        · exact ho x hx
        · exact this x hx

/-- **C46 violated: highest bit.**  Whatever is sent, the decoder never returns a value of 2^(L-1) or more: no byte above 127 can be received. -/
theorem C46_high_violated {fl : ℚ → ℚ} (L : ℕ) (hL : 1 ≤ L) (evs : List UartEv) (he : ∀ e ∈ evs, 0 ≤ e.steps) (out : List (Option ℚ × List ℕ))
    (h : getSymbols fl L evs = .ok out) : ∀ x ∈ out, ∀ c ∈ x.2, c < 2^(L - 1) := by
  unfold getSymbols at h
  cases hr : uartLoop fl L .idle evs with
  | error e => rw [hr] at h; cases h
  | ok l =>
    rw [hr] at h
    have hl : l = out := by cases l <;> cases h; rfl
    subst hl
    exact inv_loop hL evs .idle l he (inv_idle L) hr

/-- "ÿ" (255) with a short and a long gap decodes to 127 and to nothing (NUL dropped by numpy). -/
example : okSome (getSymbols b64 8 [⟨0, false, 1⟩, ⟨1, true, 11⟩, ⟨12, false, 1⟩, ⟨13, true, 8⟩]) = some [(some 0, []), (some 12, [127])] := by decide +kernel

/-! ## C48: lines -/

/-- The characters of symbols. -/
def text (l : List (Option ℚ × List ℕ)) : List ℕ := l.flatMap (·.2)

/-- Neither line feed nor carriage return. -/
def Plain (l : List (Option ℚ × List ℕ)) : Prop := ∀ s ∈ l, s.2 ≠ [10] ∧ s.2 ≠ [13]

/-- Start of the decoding. -/
def lines (l : List (Option ℚ × List ℕ)) : List (Option ℚ × List ℕ) := lineLoop ⟨false, none, []⟩ l

theorem text_cons (s : Option ℚ × List ℕ) (l : List (Option ℚ × List ℕ)) : text (s :: l) = s.2 ++ text l := by simp [text]
theorem text_append (a b : List (Option ℚ × List ℕ)) : text (a ++ b) = text a ++ text b := by simp [text]

theorem lineLoop_plain : ∀ (u rest : List (Option ℚ × List ℕ)) (t : Option ℚ) (ln : List ℕ), Plain u → (∀ s ∈ u, s.1 ≠ none) →
    lineLoop ⟨false, t, ln⟩ (u ++ rest) = lineLoop ⟨false, t.or (u.head?.bind (·.1)), ln ++ text u⟩ rest
  | [], rest, t, ln, _, _ => by simp [text]
  | s :: u, rest, t, ln, hp, ht => by
    have hs := hp s (by simp)
    have hstep : lineStep ⟨false, t, ln⟩ s = (⟨false, if t = none then s.1 else t, ln ++ s.2⟩, []) := by
      unfold lineStep
      rw [if_neg (by rintro (h | h); exact hs.1 h; cases h), if_neg hs.2]
    rw [List.cons_append, lineLoop, hstep, List.nil_append,
      lineLoop_plain u rest _ _ (fun x hx => hp x (List.mem_cons_of_mem _ hx)) (fun x hx => ht x (List.mem_cons_of_mem _ hx)), text_cons, List.append_assoc]
    congr 2
    have hs1 := ht s (by simp)
    cases t with
    | none =>
      cases h1 : s.1 with
      | none => exact absurd h1 hs1
      | some x => simp [h1]
    | some x => simp

theorem lines_lf (u v : List (Option ℚ × List ℕ)) (t : Option ℚ) (hp : Plain u) (ht : ∀ s ∈ u, s.1 ≠ none) :
    lines (u ++ (t, [10]) :: v) = (u.head?.bind (·.1), text u ++ [10]) :: lines v := by
  unfold lines
  rw [lineLoop_plain u _ _ _ hp ht, lineLoop]
  simp [lineStep]

theorem lines_cr (u v : List (Option ℚ × List ℕ)) (t : Option ℚ) (c : Option ℚ × List ℕ) (hp : Plain u) (ht : ∀ s ∈ u, s.1 ≠ none) (htt : t ≠ none) :
    lines (u ++ (t, [13]) :: c :: v) = ((u.head?.bind (·.1)).or t, text u ++ [13] ++ (if c.2 = [10] then [10] else [])) :: lines v := by
  unfold lines
  rw [lineLoop_plain u _ _ _ hp ht, lineLoop]
  have h1 : lineStep ⟨false, (none : Option ℚ).or (u.head?.bind (·.1)), [] ++ text u⟩ (t, [13]) = (⟨true, (u.head?.bind (·.1)).or t, text u ++ [13]⟩, []) := by
    unfold lineStep
    rw [if_neg (by simp)]
    simp only [if_true, Option.none_or, List.nil_append]
    congr 2
    cases u.head?.bind (·.1) <;> simp
  rw [h1, lineLoop]
  simp only [lineStep, or_true, if_true, List.nil_append, List.cons_append]
  by_cases hc : c.2 = [10]
  · simp [hc]
  · simp [hc]

theorem lines_open (u : List (Option ℚ × List ℕ)) (hp : Plain u) (ht : ∀ s ∈ u, s.1 ≠ none) : lines u = [] := by
  unfold lines
  have := lineLoop_plain u [] none [] hp ht
  rw [List.append_nil] at this
  rw [this]; rfl

/-- A line as sent: characters and its end, which is `\n` or `\r\n`. -/
structure SentLine where
  body : List (Option ℚ × List ℕ)
  term : List (Option ℚ × List ℕ)
  plain : Plain body
  times : ∀ s ∈ body ++ term, s.1 ≠ none
  ends : term.map (·.2) = [[10]] ∨ term.map (·.2) = [[13], [10]]

/-- The time of a line: that of its first symbol; an empty line ended by a single `\n` has none. -/
def SentLine.start (l : SentLine) : Option ℚ := (l.body ++ l.term.dropLast).head?.bind (·.1)

/-- **C48 (partial: every line is ended by `\n` or `\r\n`, no other `\r`).**  The lines returned are the lines sent with their ends and the time of their first symbol, the text is the sequence of
all symbols. -/
theorem C48_lines_partial (ls : List SentLine) (hne : ls ≠ []) :
    (∃ r, getLines (ls.flatMap (fun l => l.body ++ l.term)) = .ok r ∧ r.map (·.2) = ls.map (fun l => text (l.body ++ l.term)) ∧ r.map (·.1) = ls.map SentLine.start) ∧
      getText (ls.flatMap (fun l => l.body ++ l.term)) = .ok (text (ls.flatMap (fun l => l.body ++ l.term))) := by
  have key : ∀ ls : List SentLine, lines (ls.flatMap (fun l => l.body ++ l.term)) = ls.map (fun l => (l.start, text (l.body ++ l.term))) := by
    intro ls
    induction ls with
    | nil => rfl
    | cons l ls ih =>
      obtain ⟨u, term, hp, ht, he⟩ := l
      have hu : ∀ s ∈ u, s.1 ≠ none := fun s hs => ht s (List.mem_append_left _ hs)
      rw [List.flatMap_cons, List.map_cons, ← ih]
      rcases he with he | he
      · obtain ⟨x, rfl, hx⟩ : ∃ x, term = [x] ∧ x.2 = [10] := by
          cases term with
          | nil => cases he
          | cons x r => cases r with
            | nil => exact ⟨x, rfl, by simpa using he⟩
            | cons y r => simp at he
        obtain ⟨t, d⟩ := x
        simp only at hx
        subst hx
        simp only [List.append_assoc, List.cons_append, List.nil_append]
        rw [lines_lf u _ t hp hu, text_append, text_cons]
        simp [SentLine.start, text]
      · obtain ⟨x, y, rfl, hx, hy⟩ : ∃ x y, term = [x, y] ∧ x.2 = [13] ∧ y.2 = [10] := by
          cases term with
          | nil => cases he
          | cons x r => cases r with
            | nil => simp at he
            | cons y r => cases r with
              | nil => exact ⟨x, y, rfl, by simpa using he⟩
              | cons z r => simp at he
        obtain ⟨t, d⟩ := x
        have htt : t ≠ none := ht (t, d) (by simp)
        simp only at hx
        subst hx
        simp only [List.append_assoc, List.cons_append, List.nil_append]
        rw [lines_cr u _ t y hp hu htt, if_pos hy, text_append, text_cons, text_cons, hy]
        cases u with
        | nil => simp [text, SentLine.start]
        | cons s u =>
          have := hu s (by simp)
          cases hs : s.1 with
          | none => exact absurd hs this
          | some z => simp [text, SentLine.start, hs]
  have hk := key ls
  have hg : getLines (ls.flatMap (fun l => l.body ++ l.term)) = .ok (lines (ls.flatMap (fun l => l.body ++ l.term))) := by
    unfold getLines
    change (match lines _ with | [] => _ | l => _) = _
    cases hl : lines (ls.flatMap (fun l => l.body ++ l.term)) with
    | nil =>
      rw [hl] at hk
      cases ls with
      | nil => exact absurd rfl hne
      | cons l ls => cases hk
    | cons x y => rfl
  refine ⟨⟨_, hg, by rw [hk, List.map_map]; rfl, by rw [hk, List.map_map]; rfl⟩, ?_⟩
  unfold getText
  rw [hg]
  simp only [Except.ok.injEq]
  rw [List.flatMap_def, hk, List.map_map]
  clear hne hk hg
  induction ls with
  | nil => rfl
  | cons l ls ih => rw [List.map_cons, List.flatten_cons, ih, List.flatMap_cons, text_append (_ ++ _)]; rfl

theorem lineLoop_sublist : ∀ (l : List (Option ℚ × List ℕ)) (st : LineState), (text (lineLoop st l)).Sublist (st.line ++ text l)
  | [], st => by simp [lineLoop, text]
  | s :: l, st => by
    rw [lineLoop, text_append, text_cons]
    have ih := lineLoop_sublist l (lineStep st s).1
    unfold lineStep at ih ⊢
    by_cases h : s.2 = [10] ∨ st.semiStop = true
    · rw [if_pos h] at ih ⊢
      simp only [List.nil_append] at ih ⊢
      by_cases h2 : s.2 = [10]
      · rw [if_pos h2]
        rw [← List.append_assoc, show text [(st.start, st.line ++ s.2)] = st.line ++ s.2 by simp [text]]
        exact (List.Sublist.refl _).append ih
      · rw [if_neg h2]
        rw [show text [(st.start, st.line)] = st.line by simp [text]]
        exact (List.Sublist.refl _).append (ih.trans (List.sublist_append_right _ _))
    · rw [if_neg h] at ih ⊢
      simp only [List.nil_append, text, List.flatMap_nil, List.append_assoc] at ih ⊢
      exact ih

/-- **C48, order.**  For every sequence of symbols the text is a subsequence of it: nothing is invented, doubled or reordered. -/
theorem C48_subsequence (l : List (Option ℚ × List ℕ)) (t : List ℕ) (h : getText l = .ok t) : t.Sublist (text l) := by
  unfold getText getLines at h
  have := lineLoop_sublist l ⟨false, none, []⟩
  cases hl : lineLoop ⟨false, none, []⟩ l with
  | nil => rw [hl] at h; cases h
  | cons x y =>
    rw [hl] at h this
    cases h
    simpa [text] using this

/-- **C48 violated: carriage return.**  Any symbol other than `\n` behind a `\r` is lost. -/
theorem C48_cr_violated (u v : List (Option ℚ × List ℕ)) (t : Option ℚ) (c : Option ℚ × List ℕ) (hp : Plain u) (ht : ∀ s ∈ u, s.1 ≠ none) (htt : t ≠ none)
    (hc : c.2 ≠ [10]) : getText (u ++ (t, [13]) :: c :: v) = .ok (text u ++ [13] ++ text (lines v)) := by
  have h := lines_cr u v t c hp ht htt
  unfold getText getLines
  unfold lines at h
  rw [h]
  simp [text, lines, hc]

/-- **C48 violated: last line.**  Symbols behind the last line end are lost; without any line end there is no text at all but a ValueError. -/
theorem C48_tail_violated (u w : List (Option ℚ × List ℕ)) (t : Option ℚ) (hu : Plain u) (hut : ∀ s ∈ u, s.1 ≠ none) (hw : Plain w) (hwt : ∀ s ∈ w, s.1 ≠ none) :
    getText (u ++ (t, [10]) :: w) = .ok (text u ++ [10]) ∧ getText w = .error .valueError := by
  constructor
  · have h := lines_lf u w t hu hut
    rw [lines_open w hw hwt] at h
    unfold getText getLines
    unfold lines at h
    rw [h]
    simp
  · have h := lines_open w hw hwt
    unfold lines at h
    unfold getText getLines
    rw [h]

/-- "a\r\nb\n" keeps everything, "a\rbc\nd" loses "b" and "d". -/
example : okSome (getText [(some 0, [97]), (some 1, [13]), (some 2, [10]), (some 3, [98]), (some 4, [10])]) = some [97, 13, 10, 98, 10] ∧
    okSome (getText [(some 0, [97]), (some 1, [13]), (some 2, [98]), (some 3, [99]), (some 4, [10]), (some 5, [100])]) = some [97, 13, 99, 10] := by decide +kernel

/-! ## From the table of samples to the symbols -/

/-- A phase of the recorded signal: time of its first sample, level, times of further samples (without change). -/
structure Phase where
  time : ℚ
  level : Bool
  more : List ℚ

/-- Rows of the table for a phase; the signal is digital. -/
def Phase.rows (p : Phase) : List (ℚ × ℚ) := (p.time, ofBool p.level) :: p.more.map (fun t => (t, ofBool p.level))

/-- Phases show the line at a baud rate: levels agree, and the distance of the edges of every part that is not idle is off by less than 0.099 bit times. -/
inductive PhasesOf (baud : ℤ) : List Phase → List Seg → Prop
  | last (p : Phase) (s : Seg) (h1 : p.level = s.level) (h2 : s.idle = true) : PhasesOf baud [p] [s]
  | cons (p q : Phase) (ps : List Phase) (s : Seg) (segs : List Seg) (h1 : p.level = s.level)
      (h2 : s.idle = true ∨ |(q.time - p.time) * baud - s.dur| ≤ 99/1000) (h3 : PhasesOf baud (q :: ps) segs) : PhasesOf baud (p :: q :: ps) (s :: segs)

/-- The loop behind `dropRedundant`. -/
def keepChanges : Bool → List (ℚ × Bool) → List (ℚ × Bool)
  | _, [] => []
  | prev, r :: l => if r.2 ≠ prev then r :: keepChanges r.2 l else keepChanges r.2 l

theorem zip_keepChanges : ∀ (l : List (ℚ × Bool)) (prev : Bool),
    ((l.zip (prev :: (l.map (·.2)).dropLast)).filter (fun p => p.1.2 != p.2)).map (·.1) = keepChanges prev l
  | [], _ => rfl
  | [r], prev => by
    simp only [List.map_cons, List.map_nil, List.dropLast_singleton, List.zip_cons_cons, List.zip_nil_left, keepChanges, List.filter_cons, List.filter_nil]
    by_cases h : r.2 = prev <;> simp [h]
  | r :: r' :: l, prev => by
    have ih := zip_keepChanges (r' :: l) r.2
    simp only [List.map_cons] at ih
    rw [List.map_cons, List.map_cons, List.dropLast_cons_cons, List.zip_cons_cons, keepChanges, List.filter_cons]
    by_cases h : r.2 = prev
    · simp only [h, bne_self_eq_false, Bool.false_eq_true, if_false, ne_eq, not_true_eq_false]
      rw [← h]; exact ih
    · have : (r.2 != prev) = true := by simpa using h
      simp only [this, if_true, ne_eq, h, not_false_eq_true, List.map_cons]
      rw [ih]

theorem dropRedundant_eq (r : ℚ × Bool) (l : List (ℚ × Bool)) : dropRedundant (r :: l) = keepChanges (!r.2) (r :: l) := by
  unfold dropRedundant
  exact zip_keepChanges (r :: l) (!r.2)

theorem keepChanges_same (b : Bool) : ∀ (ts : List ℚ) (rest : List (ℚ × Bool)), keepChanges b (ts.map (fun t => (t, b)) ++ rest) = keepChanges b rest
  | [], _ => rfl
  | t :: ts, rest => by
    rw [List.map_cons, List.cons_append, keepChanges, if_neg (by simp)]
    exact keepChanges_same b ts rest

/-- Rows of a phase with boolean levels. -/
def Phase.brows (p : Phase) : List (ℚ × Bool) := (p.time, p.level) :: p.more.map (fun t => (t, p.level))

/-- Neighbours have different levels. -/
def Alternates : Bool → List Phase → Prop
  | _, [] => True
  | prev, p :: ps => p.level ≠ prev ∧ Alternates p.level ps

theorem keepChanges_phases : ∀ (ps : List Phase) (prev : Bool), Alternates prev ps → keepChanges prev (ps.flatMap Phase.brows) = ps.map (fun p => (p.time, p.level))
  | [], _, _ => rfl
  | p :: ps, prev, h => by
    rw [List.flatMap_cons, Phase.brows, List.cons_append, keepChanges, if_pos h.1, keepChanges_same, keepChanges_phases ps _ h.2]
    rfl

/-- Mean of a digital signal: between 0 and 1, and positive if the signal is ever high. -/
theorem mean_bounds {fl : ℚ → ℚ} (hf : Rounding fl) : ∀ (l : List ℚ), (∀ x ∈ l, x = 0 ∨ x = 1) → (1:ℚ) ∈ l → l.length ≤ 2^53 →
    0 < fl (l.sum / l.length) ∧ fl (l.sum / l.length) ≤ 1 := by
  intro l h h1 hlen
  have hb : 0 ≤ l.sum ∧ l.sum ≤ l.length := by
    clear h1 hlen
    induction l with
    | nil => simp
    | cons x l ih =>
      obtain ⟨a, b⟩ := ih (fun y hy => h y (List.mem_cons_of_mem _ hy))
      rw [List.sum_cons, List.length_cons]
      push_cast
      rcases h x (by simp) with hx | hx <;> rw [hx] <;> constructor <;> linarith
  have hs : 1 ≤ l.sum := List.single_le_sum (fun x hx => by rcases h x hx with hx | hx <;> rw [hx]; norm_num) 1 h1
  have hl0 : (0:ℚ) < l.length := by linarith [hb.2]
  constructor
  · have hle : (1:ℚ) * 2^(-53 : ℤ) ≤ l.sum / l.length := by
      rw [le_div_iff₀ hl0]
      have : (l.length : ℚ) ≤ 2^53 := by exact_mod_cast hlen
      calc (1:ℚ) * 2^(-53:ℤ) * l.length ≤ 1 * 2^(-53:ℤ) * 2^53 := by gcongr
        _ = 1 := by norm_num
        _ ≤ _ := hs
    have h2 := hf.mono hle
    have h3 := hf.exact 1 (-53) (by norm_num) (by norm_num)
    push_cast at h3
    rw [h3] at h2
    exact lt_of_lt_of_le (by norm_num) h2
  · have : l.sum / l.length ≤ ((1:ℤ) : ℚ) := by rw [div_le_iff₀ hl0]; push_cast; linarith [hb.2]
    have := hf.le_int (n := 1) (by norm_num) this
    exact_mod_cast this

/-- What is known of `np.mean`: zeros and ones are summed without error, as long as the count is an exact float. -/
def MeanOf (fl : ℚ → ℚ) (npMean : List ℚ → ℚ) : Prop := ∀ l : List ℚ, (∀ x ∈ l, x = 0 ∨ x = 1) → l ≠ [] → l.length ≤ 2^53 → npMean l = fl (l.sum / l.length)

theorem ofBool_cases (b : Bool) : ofBool b = 0 ∨ ofBool b = 1 := by cases b <;> simp [ofBool]

theorem toDigital_phases {fl : ℚ → ℚ} (hf : Rounding fl) {npMean : List ℚ → ℚ} (hmean : MeanOf fl npMean) (ps : List Phase) (hhigh : ∃ p ∈ ps, p.level = true)
    (hlen : (ps.flatMap Phase.rows).length ≤ 2^53) : toDigital npMean false (ps.flatMap Phase.rows) = ps.flatMap Phase.brows := by
  have hrows : ps.flatMap Phase.rows = (ps.flatMap Phase.brows).map (fun r => (r.1, ofBool r.2)) := by
    rw [List.map_flatMap]
    refine List.flatMap_congr (fun p _ => ?_)
    simp [Phase.rows, Phase.brows]
  have h01 : ∀ x ∈ (ps.flatMap Phase.rows).map (·.2), x = 0 ∨ x = 1 := by
    rw [hrows, List.map_map]
    intro x hx
    obtain ⟨r, -, rfl⟩ := List.mem_map.mp hx
    exact ofBool_cases _
  have h1 : (1:ℚ) ∈ (ps.flatMap Phase.rows).map (·.2) := by
    obtain ⟨p, hp, hl⟩ := hhigh
    rw [List.mem_map]
    refine ⟨(p.time, 1), List.mem_flatMap.mpr ⟨p, hp, ?_⟩, rfl⟩
    simp [Phase.rows, hl, ofBool]
  unfold toDigital
  have hne : (ps.flatMap Phase.rows).map (·.2) ≠ [] := List.ne_nil_of_mem h1
  simp only
  rw [hmean _ h01 hne (by rw [List.length_map]; exact hlen)]
  obtain ⟨m0, m1⟩ := mean_bounds hf _ h01 h1 (by rw [List.length_map]; exact hlen)
  generalize fl (((ps.flatMap Phase.rows).map (·.2)).sum / ((ps.flatMap Phase.rows).map (·.2)).length) = m at *
  conv_lhs => rw [hrows]
  rw [List.map_map]
  conv_rhs => rw [← List.map_id (ps.flatMap Phase.brows)]
  refine List.map_congr_left (fun r _ => ?_)
  obtain ⟨t, b⟩ := r
  cases b
  · simp [ofBool, m0]
  · simp [ofBool, m1]

/-- Steps computed in floats. -/
theorem steps_error {fl : ℚ → ℚ} (hf : AccRounding fl) {baud : ℤ} (hb : 0 < baud ∧ baud ≤ 10^20) {d n : ℚ} (hn : 1 ≤ n ∧ n ≤ 1000) (h : |d * baud - n| ≤ 99/1000) :
    |fl (fl d / fl (1 / baud)) - n| ≤ 1/10 := by
  have hb0 : (0:ℚ) < baud := by exact_mod_cast hb.1
  have hb1 : (baud:ℚ) ≤ 10^20 := by exact_mod_cast hb.2
  have hab := abs_le.mp h
  have hx : 9/10 ≤ d * baud := by linarith [hab.1]
  have hx2 : d * baud ≤ 1001 := by linarith [hab.2]
  have hd : 1 / 10^30 ≤ d := by
    have : 9/10 / (baud : ℚ) ≤ d := by rw [div_le_iff₀ hb0]; exact hx
    refine le_trans ?_ this
    rw [le_div_iff₀ hb0]
    calc 1 / 10^30 * (baud:ℚ) ≤ 1/10^30 * 10^20 := by gcongr
      _ ≤ 9/10 := by norm_num
  have ht : (1:ℚ) / 10^30 ≤ 1 / baud := by
    rw [div_le_div_iff₀ (by positivity) hb0]
    linarith [show (10:ℚ)^20 ≤ 10^30 by norm_num]
  obtain ⟨a1, a2⟩ := acc_rel hf hd
  obtain ⟨t1, t2⟩ := acc_rel hf ht
  set a := fl d
  set t := fl (1 / (baud:ℚ))
  have hbi : (1:ℚ) / baud * baud = 1 := by field_simp
  have ht0 : 0 < t := lt_of_lt_of_le (mul_pos (by positivity) (by norm_num)) t1
  have hd0 : 0 < d := lt_of_lt_of_le (by positivity) hd
  have ha0 : 0 < a := lt_of_lt_of_le (mul_pos hd0 (by norm_num)) a1
  -- a / t against d * baud
  have tb1 : 1 - 1/2^52 ≤ t * baud := by
    have := mul_le_mul_of_nonneg_right t1 hb0.le
    rw [mul_right_comm, hbi, one_mul] at this; exact this
  have tb2 : t * baud ≤ 1 + 1/2^52 := by
    have := mul_le_mul_of_nonneg_right t2 hb0.le
    rw [mul_right_comm, hbi, one_mul] at this; exact this
  have q1 : d * baud * (1 - 1/2^50) ≤ a / t := by
    rw [le_div_iff₀ ht0]
    refine le_trans ?_ a1
    have : d * baud * (1 - 1/2^50) * t = d * ((1 - 1/2^50) * (t * baud)) := by ring
    rw [this]
    refine mul_le_mul_of_nonneg_left ?_ hd0.le
    calc (1 - 1/2^50) * (t * baud) ≤ (1 - 1/2^50) * (1 + 1/2^52) := by gcongr
      _ ≤ _ := by norm_num
  have q2 : a / t ≤ d * baud * (1 + 1/2^50) := by
    rw [div_le_iff₀ ht0]
    refine le_trans a2 ?_
    have : d * baud * (1 + 1/2^50) * t = d * ((1 + 1/2^50) * (t * baud)) := by ring
    rw [this]
    refine mul_le_mul_of_nonneg_left ?_ hd0.le
    calc (1:ℚ) + 1/2^52 ≤ (1 + 1/2^50) * (1 - 1/2^52) := by norm_num
      _ ≤ (1 + 1/2^50) * (t * baud) := by gcongr
  obtain ⟨s1, s2⟩ := acc_rel hf (x := a / t) (le_trans (by norm_num) (le_trans (mul_le_mul_of_nonneg_right hx (by norm_num)) q1))
  rw [abs_le]
  norm_num at *
  constructor <;> linarith

theorem phases_alternate_merge : ∀ (l : List Seg) (s : Seg) (r : List Seg), merge l = s :: r → ∀ t ∈ r.head?, s.level ≠ t.level
  | [], s, r, h => by cases h
  | x :: l, s, r, h => by
    rw [merge] at h
    cases hm : merge l with
    | nil => rw [hm] at h; cases h; simp
    | cons t r' =>
      rw [hm] at h
      simp only at h
      have ih := phases_alternate_merge l t r' hm
      split_ifs at h with hx
      · cases h
        intro u hu
        rw [hx]
        exact ih u hu
      · cases h
        intro u hu
        simp only [List.head?_cons, Option.mem_def, Option.some.injEq] at hu
        rw [← hu]; exact hx

/-- Levels of a merged line alternate. -/
theorem merge_tail : ∀ (l : List Seg) (s : Seg) (r : List Seg), merge l = s :: r → ∃ l', merge l' = r
  | [], s, r, h => by cases h
  | x :: l, s, r, h => by
    rw [merge] at h
    cases hm : merge l with
    | nil => rw [hm] at h; cases h; exact ⟨[], rfl⟩
    | cons t r' =>
      rw [hm] at h
      simp only at h
      split_ifs at h with hx
      · cases h
        exact merge_tail l t _ hm
      · cases h
        exact ⟨l, hm⟩

theorem phases_alternate {baud : ℤ} {ps : List Phase} {segs : List Seg} (h : PhasesOf baud ps segs) : ∀ l, merge l = segs → ∀ prev, (∀ s ∈ segs.head?, s.level ≠ prev) →
    Alternates prev ps := by
  induction h with
  | last p s h1 h2 =>
    intro l _ prev hp
    exact ⟨by rw [h1]; exact hp s (by simp), trivial⟩
  | cons p q ps s segs h1 h2 h3 ih =>
    intro l hl prev hp
    refine ⟨by rw [h1]; exact hp s (by simp), ?_⟩
    obtain ⟨l', hl'⟩ := merge_tail l s segs hl
    refine ih l' hl' p.level ?_
    intro t ht
    rw [h1]
    exact fun he => phases_alternate_merge l s segs hl t ht he.symm

/-- Durations of the parts of a line. -/
theorem line_dur {L : ℕ} (hL1 : 1 ≤ L) {msg : List (ℕ × ℚ)} (hm : ∀ m ∈ msg, m.1 < 2^(L - 1)) : ∀ s ∈ line L msg, s.idle = true ∧ s.level = true ∨ (1 ≤ s.dur ∧ s.dur ≤ L + 1) := by
  rw [line_eq hL1 _ hm]
  intro s hs
  obtain ⟨m, -, hin⟩ := List.mem_flatMap.mp hs
  rcases List.mem_append.mp hin with h | h
  · right
    have hrun : ∃ q ∈ rle (false :: dataBits L m.1), s.dur = q.2 := by
      unfold frameSegs at h
      cases hr : rle (false :: dataBits L m.1) with
      | nil => rw [hr] at h; cases h
      | cons q t =>
        rw [hr] at h
        rcases List.mem_cons.mp h with h | h
        · exact ⟨q, by simp, by rw [h]; rfl⟩
        · obtain ⟨z, hz, rfl⟩ := List.mem_map.mp h
          exact ⟨z, List.mem_cons_of_mem _ hz, rfl⟩
    obtain ⟨q, hq, he⟩ := hrun
    have h1 := rle_pos _ q hq
    have h2 : q.2 ≤ L + 1 := by
      have := rle_len (false :: dataBits L m.1)
      have hl : (false :: dataBits L m.1).length = L + 1 := by simp [dataBits]
      rw [hl] at this
      rw [← this]
      exact List.single_le_sum (fun x _ => Nat.zero_le x) _ (List.mem_map.mpr ⟨q, hq, rfl⟩)
    rw [he]
    exact ⟨by exact_mod_cast h1, by exact_mod_cast h2⟩
  · rw [List.mem_singleton] at h
    left; rw [h]; exact ⟨rfl, rfl⟩

/-- Events of phases. -/
def evsOf (fl : ℚ → ℚ) (baud : ℤ) (ps : List Phase) : List UartEv := addDuration fl (fl (1 / baud)) (ps.map (fun p => (p.time, p.level)))

theorem evsOf_cons (fl : ℚ → ℚ) (baud : ℤ) (p q : Phase) (ps : List Phase) :
    evsOf fl baud (p :: q :: ps) = ⟨p.time, p.level, fl (fl (q.time - p.time) / fl (1 / baud))⟩ :: evsOf fl baud (q :: ps) := rfl

theorem evsOf_observes {fl : ℚ → ℚ} (hf : AccRounding fl) {baud : ℤ} (hb : 0 < baud ∧ baud ≤ 10^20) {ps : List Phase} {segs : List Seg} (h : PhasesOf baud ps segs) :
    (∀ s ∈ segs, s.idle = true ∧ s.level = true ∨ (1 ≤ s.dur ∧ s.dur ≤ 1000)) → Observes (evsOf fl baud ps) segs := by
  induction h with
  | last p s h1 h2 =>
    intro _
    exact ⟨[⟨p.time, p.level, 0⟩], by simp, .cons ⟨h1, .inl h2⟩ .nil⟩
  | cons p q ps s segs h1 h2 h3 ih =>
    intro hd
    obtain ⟨tail, ht, hobs⟩ := ih (fun x hx => hd x (List.mem_cons_of_mem _ hx))
    refine ⟨tail, ht, ?_⟩
    rw [evsOf_cons, List.cons_append]
    refine .cons ⟨h1, ?_⟩ hobs
    rcases h2 with h2 | h2
    · exact .inl h2
    · rcases hd s (by simp) with h | h
      · exact .inl h.1
      · exact .inr (steps_error hf hb h h2)

theorem detect_ok {fl : ℚ → ℚ} (hf : AccRounding fl) {npMean : List ℚ → ℚ} (hmean : MeanOf fl npMean) (evs : List UartEv)
    (h : ∀ e ∈ evs, e.steps > 80 → e.high = true) : detectInversion fl npMean evs = .ok false := by
  unfold detectInversion
  have hall : ∀ x ∈ ((evs.take 1000).filter (fun e => e.steps > 80)).map (fun e => ofBool e.high), x = 1 := by
    intro x hx
    obtain ⟨e, he, rfl⟩ := List.mem_map.mp hx
    rw [List.mem_filter] at he
    rw [h e (List.mem_of_mem_take he.1) (by simpa using he.2)]
    rfl
  simp only
  have hlen : (((evs.take 1000).filter (fun e => e.steps > 80)).map (fun e => ofBool e.high)).length ≤ 2^53 := by
    rw [List.length_map]
    exact (List.length_filter_le _ _).trans (by rw [List.length_take]; omega)
  generalize ((evs.take 1000).filter (fun e => e.steps > 80)).map (fun e => ofBool e.high) = l at hall hlen
  cases l with
  | nil => rfl
  | cons x l =>
    have hm : npMean (x :: l) = 1 := by
      rw [hmean _ (fun y hy => .inr (hall y hy)) (by simp) hlen]
      have hs : (x :: l).sum = (x :: l).length := by
        have : x :: l = List.replicate (x :: l).length 1 := List.eq_replicate_iff.mpr ⟨rfl, hall⟩
        rw [this]; simp
      rw [hs, div_self (by simp only [List.length_cons]; positivity)]
      exact_mod_cast hf.toRounding.exactInt 1 (by norm_num)
    simp only
    rw [hm, if_neg]
    · norm_num
    · rintro ⟨-, h2⟩
      have := hf.toRounding.le_int (x := 9/10) (n := 1) (by norm_num) (by norm_num)
      push_cast at this
      linarith

/-- Levels of a line are not lost when neighbours are joined. -/
theorem merge_level (b : Bool) : ∀ l : List Seg, (∃ s ∈ l, s.level = b) → ∃ s ∈ merge l, s.level = b
  | [], h => by simp at h
  | x :: l, h => by
    have ih := merge_level b l
    rw [merge]
    cases hm : merge l with
    | nil =>
      obtain ⟨s, hs, hb⟩ := h
      rcases List.mem_cons.mp hs with rfl | hs
      · exact ⟨s, by simp, hb⟩
      · obtain ⟨s', hs', -⟩ := ih ⟨s, hs, hb⟩
        rw [hm] at hs'; simp at hs'
    | cons t r =>
      rw [hm] at ih
      simp only
      obtain ⟨s, hs, hb⟩ := h
      split_ifs with hc
      · rcases List.mem_cons.mp hs with rfl | hs
        · exact ⟨_, List.mem_cons_self, hb⟩
        · obtain ⟨s', hs', hb'⟩ := ih ⟨s, hs, hb⟩
          rcases List.mem_cons.mp hs' with rfl | hs'
          · exact ⟨_, List.mem_cons_self, by rw [← hb', ← hc]⟩
          · exact ⟨s', List.mem_cons_of_mem _ hs', hb'⟩
      · rcases List.mem_cons.mp hs with rfl | hs
        · exact ⟨_, List.mem_cons_self, hb⟩
        · obtain ⟨s', hs', hb'⟩ := ih ⟨s, hs, hb⟩
          exact ⟨s', List.mem_cons_of_mem _ hs', hb'⟩

theorem phases_level (baud : ℤ) (b : Bool) : ∀ ps segs, PhasesOf baud ps segs → (∃ s ∈ segs, s.level = b) → ∃ p ∈ ps, p.level = b := by
  intro ps segs h
  induction h with
  | last p s h1 h2 =>
    rintro ⟨x, hx, hl⟩
    rw [List.mem_singleton] at hx
    exact ⟨p, by simp, by rw [h1, ← hx]; exact hl⟩
  | cons p q ps s segs h1 h2 h3 ih =>
    rintro ⟨x, hx, hl⟩
    rcases List.mem_cons.mp hx with hx | hx
    · exact ⟨p, by simp, by rw [h1, ← hx]; exact hl⟩
    · obtain ⟨p', hp', hl'⟩ := ih ⟨x, hx, hl⟩
      exact ⟨p', List.mem_cons_of_mem _ hp', hl'⟩

/-- The phases of a message alternate, and both levels occur. -/
theorem table_phases (baud : ℤ) (L : ℕ) (msg : List (ℕ × ℚ)) (hne : msg ≠ []) (lead : List Seg)
    (hlead : lead = [] ∨ ∃ g, lead = [⟨true, g, true, none⟩]) (ps : List Phase) (hps : PhasesOf baud ps (lead ++ line L msg)) :
    (∀ b, ∃ p ∈ ps, p.level = b) ∧ ∃ prev, Alternates prev ps ∧ ∀ p ∈ ps.head?, p.level = !prev := by
  have hmerge : merge (lead ++ msg.flatMap (sendByte L)) = lead ++ line L msg := by
    rcases hlead with rfl | ⟨g, rfl⟩
    · rfl
    · rw [merge_append]
      · rfl
      · intro s hs t ht
        simp only [List.getLast?_singleton, Option.mem_def, Option.some.injEq] at hs
        cases msg with
        | nil => simp at ht
        | cons m' msg' =>
          simp only [List.flatMap_cons, sendByte, List.cons_append, List.head?_cons, Option.mem_def, Option.some.injEq] at ht
          rw [← ht, ← hs]; simp
  constructor
  · intro b
    refine phases_level baud b ps _ hps ?_
    rw [← hmerge]
    refine merge_level b _ ?_
    cases msg with
    | nil => exact absurd rfl hne
    | cons m msg =>
      cases b with
      | false => exact ⟨{ level := false, dur := 1, byte := some m.1 }, by simp [sendByte], rfl⟩
      | true => exact ⟨{ level := true, dur := 1 + m.2, idle := true }, by simp [sendByte], rfl⟩
  · cases ps with
    | nil => exact ⟨true, trivial, by simp⟩
    | cons p ps =>
      refine ⟨!p.level, ?_, by simp⟩
      refine phases_alternate hps _ hmerge _ ?_
      intro s hs
      have : p.level = s.level := by
        generalize lead ++ line L msg = segs at hps hs
        cases hps with
        | last p s' h1 h2 => simp at hs; rw [h1, hs]
        | cons p q ps s' segs h1 h2 h3 => simp at hs; rw [h1, hs]
      rw [this]; cases s.level <;> simp

/-- Rows of phases with alternating levels are reduced to the edges. -/
theorem dropRedundant_phases (ps : List Phase) (h : ∃ prev, Alternates prev ps ∧ ∀ p ∈ ps.head?, p.level = !prev) :
    dropRedundant (ps.flatMap Phase.brows) = ps.map (fun p => (p.time, p.level)) := by
  cases ps with
  | nil => rfl
  | cons p ps =>
    obtain ⟨prev, hal, hp⟩ := h
    have : prev = !p.level := by have := hp p (by simp); rw [this]; simp
    rw [this] at hal
    rw [← keepChanges_phases (p :: ps) _ hal, List.flatMap_cons, Phase.brows, List.cons_append, dropRedundant_eq]

/-- The table is reduced to its edges. -/
theorem table_prepared {fl : ℚ → ℚ} (hf : AccRounding fl) {npMean : List ℚ → ℚ} (hmean : MeanOf fl npMean) (baud : ℤ) (L : ℕ)
    (msg : List (ℕ × ℚ)) (hne : msg ≠ []) (lead : List Seg)
    (hlead : lead = [] ∨ ∃ g, lead = [⟨true, g, true, none⟩]) (ps : List Phase) (hps : PhasesOf baud ps (lead ++ line L msg))
    (hlen : (ps.flatMap Phase.rows).length ≤ 2^53) :
    toDigital npMean false (ps.flatMap Phase.rows) = ps.flatMap Phase.brows ∧ dropRedundant (ps.flatMap Phase.brows) = ps.map (fun p => (p.time, p.level)) := by
  obtain ⟨hlev, hal⟩ := table_phases baud L msg hne lead hlead ps hps
  exact ⟨toDigital_phases hf.toRounding hmean ps (hlev true) hlen, dropRedundant_phases ps hal⟩

/-- Sorted times have no negative steps. -/
theorem steps_sorted {fl : ℚ → ℚ} (hf : Rounding fl) (rows : List (ℚ × ℚ)) (hsorted : (rows.map (·.1)).IsChain (· ≤ ·)) :
    ¬ (List.zipWith (fun a b : ℚ × ℚ => fl (b.1 - a.1)) rows rows.tail).any (fun d => d < 0) = true := by
  rw [Bool.not_eq_true, List.any_eq_false]
  intro d hd
  have key : ∀ rows : List (ℚ × ℚ), (rows.map (·.1)).IsChain (· ≤ ·) → ∀ d ∈ List.zipWith (fun a b : ℚ × ℚ => fl (b.1 - a.1)) rows rows.tail, 0 ≤ d := by
    intro rows
    induction rows with
    | nil => intro _ d hd; cases hd
    | cons r rows ih =>
      intro hc d hd
      cases rows with
      | nil => cases hd
      | cons r' rows =>
        simp only [List.map_cons] at hc ih
        rw [List.isChain_cons_cons] at hc
        simp only [List.tail_cons, List.zipWith_cons_cons] at hd
        rcases List.mem_cons.mp hd with rfl | hd
        · exact hf.nonneg (by linarith [hc.1])
        · exact ih hc.2 d hd
  have := key _ hsorted d hd
  simpa using this

/-- Some event of a line is high. -/
theorem observed_high {L : ℕ} (hL1 : 1 ≤ L) (msg : List (ℕ × ℚ)) (hne : msg ≠ []) (hm : ∀ m ∈ msg, 1 ≤ m.1 ∧ m.1 < 2^(L - 1) ∧ m.1 < 0x110000) (lead : List Seg) (evs : List UartEv)
    (hobs : Observes evs (lead ++ line L msg)) : ∃ e ∈ evs, e.high = true := by
  obtain ⟨tail, htl, hfa⟩ := hobs
  cases msg with
  | nil => exact absurd rfl hne
  | cons m msg =>
    obtain ⟨k, t, hr, -, -, hte, -, -, hlast, hhead, -⟩ := frame_runs (hm m (by simp)).1 (hm m (by simp)).2.1
    rw [line_eq hL1 _ (fun m h => (hm m h).2.1), List.flatMap_cons, frameSegs, hr] at hfa
    cases t with
    | nil => exact absurd rfl hte
    | cons q t =>
      have hq : q.1 = true := hhead q (by simp)
      cases t with
      | nil =>
        have := hlast q (by simp)
        rw [hq] at this; cases this
      | cons q' t =>
        have hl := hfa.length_eq
        simp only [List.length_append, List.length_cons, List.map_cons] at hl
        have hpos : lead.length + 1 < evs.length := by omega
        refine ⟨evs[lead.length + 1], List.getElem_mem hpos, ?_⟩
        have h1 := (List.forall₂_iff_get.mp hfa).2 (lead.length + 1) (by rw [List.length_append]; omega) (by simp)
        simp only [List.get_eq_getElem] at h1
        rw [List.getElem_append_left hpos] at h1
        rw [h1.1]
        simp [runSeg, hq]

/-- The bytes sent, each with the time of the edge that starts it. -/
def stamped (ps : List Phase) (segs : List Seg) : List (Option ℚ × List ℕ) :=
  (ps.zip segs).filterMap (fun x => x.2.byte.map (fun b => (some x.1.time, [b])))

theorem received_stamped (fl : ℚ → ℚ) {baud : ℤ} {ps : List Phase} {segs : List Seg} (h : PhasesOf baud ps segs) :
    (∀ s ∈ segs, s.idle = true → s.byte = none) → received (fun _ => true) (evsOf fl baud ps) segs = stamped ps segs := by
  induction h with
  | last p s h1 h2 =>
    intro hb
    have := hb s (by simp) h2
    simp [received, stamped, evsOf, addDuration, this]
  | cons p q ps s segs h1 h2 h3 ih =>
    intro hb
    have ih' := ih (fun s hs => hb s (List.mem_cons_of_mem _ hs))
    rw [evsOf_cons]
    unfold received stamped at ih' ⊢
    rw [List.zip_cons_cons, List.zip_cons_cons, List.filterMap_cons, List.filterMap_cons, ih']
    cases s.byte <;> simp

/-- Idle parts start no byte. -/
theorem idle_byte {L : ℕ} (hL1 : 1 ≤ L) (msg : List (ℕ × ℚ)) (hm : ∀ m ∈ msg, m.1 < 2^(L - 1)) : ∀ s ∈ line L msg, s.idle = true → s.byte = none := by
  intro s hs hi
  rw [line_eq hL1 _ hm] at hs
  obtain ⟨m, -, hin⟩ := List.mem_flatMap.mp hs
  rcases List.mem_append.mp hin with h' | h'
  · exfalso
    unfold frameSegs at h'
    cases hr : rle (false :: dataBits L m.1) with
    | nil => rw [hr] at h'; cases h'
    | cons q t =>
      rw [hr] at h'
      rcases List.mem_cons.mp h' with h' | h'
      · rw [h'] at hi; cases hi
      · obtain ⟨z, hz, rfl⟩ := List.mem_map.mp h'
        cases hi
  · rw [List.mem_singleton] at h'
    rw [h']

/-- What the events of a table tell. -/
theorem table_symbols {fl : ℚ → ℚ} (hf : AccRounding fl) (baud : ℤ) (hb : 0 < baud ∧ baud ≤ 10^20) (L : ℕ) (hL : L ≤ 64)
    (msg : List (ℕ × ℚ)) (hne : msg ≠ []) (hm : ∀ m ∈ msg, 1 ≤ m.1 ∧ m.1 < 2^(L - 1) ∧ m.1 < 0x110000) (lead : List Seg)
    (hlead : lead = [] ∨ ∃ g, lead = [⟨true, g, true, none⟩]) (ps : List Phase) (hps : PhasesOf baud ps (lead ++ line L msg)) :
    1 ≤ L ∧ (∀ e ∈ evsOf fl baud ps, e.steps > 80 → e.high = true) ∧ (∃ e ∈ evsOf fl baud ps, e.high = true) ∧
    ∃ out, getSymbols fl L (evsOf fl baud ps) = .ok out ∧ out.map (·.2) = msg.map (fun m => [m.1]) ∧ out = stamped ps (lead ++ line L msg) := by
  have hL1 : 1 ≤ L := by
    cases msg with
    | nil => exact absurd rfl hne
    | cons m msg =>
      have := hm m (by simp)
      by_contra hc
      have h0 : L - 1 = 0 := by omega
      rw [h0] at this
      simp only [pow_zero] at this
      omega
  have hdur0 := line_dur hL1 (fun m h => (hm m h).2.1)
  have hdur : ∀ s ∈ lead ++ line L msg, s.idle = true ∧ s.level = true ∨ (1 ≤ s.dur ∧ s.dur ≤ L + 1) := by
    intro s hs
    rcases List.mem_append.mp hs with h | h
    · rcases hlead with rfl | ⟨g, rfl⟩
      · cases h
      · rw [List.mem_singleton] at h; left; rw [h]; exact ⟨rfl, rfl⟩
    · exact hdur0 s h
  have hLq : (L : ℚ) ≤ 64 := by exact_mod_cast hL
  have hdur' : ∀ s ∈ lead ++ line L msg, s.idle = true ∧ s.level = true ∨ (1 ≤ s.dur ∧ s.dur ≤ 1000) := by
    intro s hs
    rcases hdur s hs with h | h
    · exact .inl h
    · exact .inr ⟨h.1, by linarith [h.2]⟩
  have hobs := evsOf_observes hf hb hps hdur'
  have hdet : ∀ e ∈ evsOf fl baud ps, e.steps > 80 → e.high = true := by
    obtain ⟨tail, -, hfa⟩ := hobs
    intro e he hst
    obtain ⟨s, hs, hsh⟩ : ∃ s ∈ lead ++ line L msg, Shows e s := by
      have hmem : e ∈ evsOf fl baud ps ++ tail := List.mem_append_left _ he
      generalize evsOf fl baud ps ++ tail = l at hfa hmem
      generalize lead ++ line L msg = segs at hfa
      induction hfa with
      | nil => cases hmem
      | cons h1 h2 ih =>
        rcases List.mem_cons.mp hmem with rfl | hmem
        · exact ⟨_, by simp, h1⟩
        · obtain ⟨s, hs, hsh⟩ := ih hmem
          exact ⟨s, List.mem_cons_of_mem _ hs, hsh⟩
    rcases hdur s hs with h | h
    · rw [hsh.1]; exact h.2
    · rcases hsh.2 with hi | hi
      · -- idle parts are high
        rcases List.mem_append.mp hs with hs | hs
        · rcases hlead with rfl | ⟨g, rfl⟩
          · cases hs
          · rw [List.mem_singleton] at hs; rw [hsh.1, hs]
        rw [line_eq hL1 _ (fun m h => (hm m h).2.1)] at hs
        obtain ⟨m, -, hin⟩ := List.mem_flatMap.mp hs
        rcases List.mem_append.mp hin with h' | h'
        · exfalso
          unfold frameSegs at h'
          cases hr : rle (false :: dataBits L m.1) with
          | nil => rw [hr] at h'; cases h'
          | cons q t =>
            rw [hr] at h'
            rcases List.mem_cons.mp h' with h' | h'
            · rw [h'] at hi; cases hi
            · obtain ⟨z, hz, rfl⟩ := List.mem_map.mp h'
              cases hi
        · rw [List.mem_singleton] at h'
          rw [hsh.1, h']
      · exfalso
        have := (abs_le.mp hi).2
        linarith [h.2]
  have hex := observed_high hL1 msg hne hm lead _ hobs
  -- silence at the start
  obtain ⟨pre, evs, hevs, hpre, hobs', hprel⟩ : ∃ pre evs, evsOf fl baud ps = pre ++ evs ∧ (∀ e ∈ pre, e.high = true) ∧ Observes evs (line L msg) ∧
      pre.length = lead.length := by
    rcases hlead with rfl | ⟨g, rfl⟩
    · exact ⟨[], _, rfl, by simp, hobs, rfl⟩
    · obtain ⟨tail, htl, hfa⟩ := hobs
      cases he : evsOf fl baud ps with
      | nil =>
        exfalso
        have := hfa.length_eq
        rw [he] at this
        have hl : line L msg ≠ [] := by
          rw [line_eq hL1 _ (fun m h => (hm m h).2.1)]
          cases msg with
          | nil => exact absurd rfl hne
          | cons m msg => rw [List.flatMap_cons]; simp
        have := List.length_pos_iff.mpr hl
        simp only [List.nil_append, List.length_append, List.length_cons, List.length_nil] at *
        omega
      | cons e es =>
        rw [he, List.cons_append, List.cons_append] at hfa
        cases hfa with
        | cons h1 h2 => exact ⟨[e], es, rfl, by intro x hx; rw [List.mem_singleton] at hx; rw [hx]; exact h1.1, ⟨tail, htl, h2⟩, rfl⟩
  obtain ⟨h1, h2⟩ := C47_jitter_partial hf.toRounding L hL msg pre evs hne hm hpre hobs'
  refine ⟨hL1, hdet, hex, _, ?_, h2, ?_⟩
  · rw [hevs]
    exact h1
  · have hb : ∀ s ∈ lead ++ line L msg, s.idle = true → s.byte = none := by
      intro s hs hi
      rcases List.mem_append.mp hs with h | h
      · rcases hlead with rfl | ⟨g, rfl⟩
        · cases h
        · rw [List.mem_singleton] at h; rw [h]
      · exact idle_byte hL1 msg (fun m h => (hm m h).2.1) s h hi
    rw [← received_stamped fl hps hb, hevs, received_append _ hprel]
    have : received (fun _ => true) pre lead = [] := by
      rcases hlead with rfl | ⟨g, rfl⟩
      · simp [received]
      · cases pre <;> simp [received]
    rw [this, List.nil_append]

/-- **C46/C47, from the table (partial: values from 1 to 2^(L-1) - 1).**  A table of times and digital samples (changes only or with redundant rows) of a line, whose edges are
displaced by less than 0.099 bit times, with or without silence at the start, is decoded to the message, each byte with the time of the edge of its start bit; inversion is given as off or left to detection. -/
theorem C47_table_partial {fl : ℚ → ℚ} (hf : AccRounding fl) {npMean : List ℚ → ℚ} (hmean : MeanOf fl npMean) (baud : ℤ) (hb : 0 < baud ∧ baud ≤ 10^20) (L : ℕ) (hL : L ≤ 64)
    (msg : List (ℕ × ℚ)) (hne : msg ≠ []) (hm : ∀ m ∈ msg, 1 ≤ m.1 ∧ m.1 < 2^(L - 1) ∧ m.1 < 0x110000) (lead : List Seg)
    (hlead : lead = [] ∨ ∃ g, lead = [⟨true, g, true, none⟩]) (ps : List Phase) (hps : PhasesOf baud ps (lead ++ line L msg))
    (hlen : 8 ≤ (ps.flatMap Phase.rows).length ∧ (ps.flatMap Phase.rows).length ≤ 2^53)
    (hsorted : ((ps.flatMap Phase.rows).map (·.1)).IsChain (· ≤ ·)) (inv : Option Bool) (hinv : inv ≠ some true) :
    ∃ out, uartDecode fl npMean baud L inv (ps.flatMap Phase.rows) = .ok out ∧ out.map (·.2) = msg.map (fun m => [m.1]) ∧ out = stamped ps (lead ++ line L msg) := by
  obtain ⟨hL1, hdet', -, out, hout, ho⟩ := table_symbols hf baud hb L hL msg hne hm lead hlead ps hps
  have hdet := detect_ok hf hmean _ hdet'
  obtain ⟨hdig, hred⟩ := table_prepared hf hmean baud L msg hne lead hlead ps hps hlen.2
  have hinit : uartInit fl npMean baud L inv (ps.flatMap Phase.rows) = .ok (evsOf fl baud ps) := by
    unfold uartInit
    rw [if_neg (by omega), if_neg, if_neg (by omega)]
    · simp only
      rw [hdig, hred]
      change (match chooseInversion fl npMean inv (evsOf fl baud ps) with | .error e => _ | .ok b => _) = _
      have hch : chooseInversion fl npMean inv (evsOf fl baud ps) = .ok false := by
        cases inv with
        | none => exact hdet
        | some b =>
          cases b with
          | false => rfl
          | true => exact absurd rfl hinv
      rw [hch]
      simp only
      rw [if_neg (by rw [not_not]; constructor <;> omega)]
      simp only [Bool.false_eq_true, if_false]
      change (match detectInversion fl npMean (evsOf fl baud ps) with | .error e => _ | .ok b => _) = _
      rw [hdet]
      rfl
    · exact steps_sorted hf.toRounding _ hsorted
  refine ⟨out, ?_, ho⟩
  unfold uartDecode
  rw [hinit]
  exact hout

/-! ## Inverted lines -/

/-- The same phase with the other level. -/
def Phase.flip (p : Phase) : Phase := { p with level := !p.level }

/-- There is a pause of at least 81 bit times among the first 1000 phases. -/
def LongPause (baud : ℤ) (ps : List Phase) : Prop := ∃ i p q, i < 1000 ∧ ps[i]? = some p ∧ ps[i + 1]? = some q ∧ (81 : ℚ) ≤ (q.time - p.time) * baud

/-- The same event with the other level. -/
def flipEv (e : UartEv) : UartEv := { e with high := !e.high }

theorem evsOf_flip (fl : ℚ → ℚ) (baud : ℤ) (ps : List Phase) : evsOf fl baud (ps.map Phase.flip) = (evsOf fl baud ps).map flipEv := by
  unfold evsOf addDuration
  rw [List.map_map, List.map_zipWith]
  rw [← List.map_tail, ← List.map_tail, List.zipWith_map, List.zipWith_map]
  rfl

/-- The mean of a digital signal that is ever low is below 1. -/
theorem mean_below {fl : ℚ → ℚ} (hf : Rounding fl) (l : List ℚ) (h : ∀ x ∈ l, x = 0 ∨ x = 1) (h0 : (0:ℚ) ∈ l) (hlen : l.length ≤ 2^53) :
    0 ≤ fl (l.sum / l.length) ∧ fl (l.sum / l.length) < 1 := by
  have hb : 0 ≤ l.sum ∧ l.sum ≤ l.length - 1 := by
    obtain ⟨a, b, rfl⟩ := List.append_of_mem h0
    have aux : ∀ l : List ℚ, (∀ x ∈ l, x = 0 ∨ x = 1) → 0 ≤ l.sum ∧ l.sum ≤ l.length := by
      intro l
      induction l with
      | nil => simp
      | cons x l ih =>
        intro h
        obtain ⟨a, b⟩ := ih (fun y hy => h y (List.mem_cons_of_mem _ hy))
        rw [List.sum_cons, List.length_cons]
        push_cast
        rcases h x (by simp) with hx | hx <;> rw [hx] <;> constructor <;> linarith
    obtain ⟨a1, a2⟩ := aux a (fun x hx => h x (by simp [hx]))
    obtain ⟨b1, b2⟩ := aux b (fun x hx => h x (by simp [hx]))
    rw [List.sum_append, List.sum_cons, List.length_append, List.length_cons]
    push_cast
    constructor <;> linarith
  have hl : (1 : ℚ) ≤ l.length := by linarith [hb.1, hb.2]
  have hl2 : (l.length : ℚ) ≤ 2 ^ 53 := by exact_mod_cast hlen
  refine ⟨hf.nonneg (div_nonneg hb.1 (by linarith)), ?_⟩
  have h1 : l.sum / l.length ≤ ((2 ^ 53 - 1 : ℤ) : ℚ) * 2 ^ (-53 : ℤ) := by
    rw [div_le_iff₀ (by linarith)]
    norm_num
    linarith [hb.2]
  have h2 := hf.mono h1
  rw [hf.exact _ _ (by norm_num) (by norm_num)] at h2
  exact lt_of_le_of_lt h2 (by norm_num)

/-- Inverting the events twice gives them back, if there is a low one. -/
theorem invert_flip {fl : ℚ → ℚ} (hf : Rounding fl) {npMean : List ℚ → ℚ} (hmean : MeanOf fl npMean) (evs : List UartEv) (hhigh : ∃ e ∈ evs, e.high = true) (hlen : evs.length ≤ 2^53) :
    invertEvents npMean (evs.map flipEv) = evs := by
  obtain ⟨e0, he0, hh⟩ := hhigh
  have h01 : ∀ x ∈ (evs.map flipEv).map (fun e => ofBool e.high), x = 0 ∨ x = 1 := by
    intro x hx
    obtain ⟨e, -, rfl⟩ := List.mem_map.mp hx
    exact ofBool_cases _
  have h0 : (0:ℚ) ∈ (evs.map flipEv).map (fun e => ofBool e.high) := by
    rw [List.mem_map]
    exact ⟨flipEv e0, List.mem_map_of_mem he0, by simp [flipEv, hh, ofBool]⟩
  have hm := hmean _ h01 (List.ne_nil_of_mem h0) (by rw [List.length_map, List.length_map]; exact hlen)
  obtain ⟨m0, m1⟩ := mean_below hf _ h01 h0 (by rw [List.length_map, List.length_map]; exact hlen)
  unfold invertEvents
  rw [hm]
  dsimp only
  generalize fl (((evs.map flipEv).map (fun e => ofBool e.high)).sum / ((evs.map flipEv).map (fun e => ofBool e.high)).length) = m at *
  rw [List.map_map]
  conv_rhs => rw [← List.map_id evs]
  refine List.map_congr_left (fun e _ => ?_)
  obtain ⟨tm, b, s⟩ := e
  cases b
  · simp [flipEv, ofBool, m1]
  · simp [flipEv, ofBool, m0]

/-- Low pauses mean inversion. -/
theorem detect_flip {fl : ℚ → ℚ} (hf : AccRounding fl) {npMean : List ℚ → ℚ} (hmean : MeanOf fl npMean) (evs : List UartEv)
    (h : ∀ e ∈ evs, e.steps > 80 → e.high = true) (hex : ∃ e ∈ evs.take 1000, e.steps > 80) : detectInversion fl npMean (evs.map flipEv) = .ok true := by
  unfold detectInversion
  have hall : ∀ x ∈ (((evs.map flipEv).take 1000).filter (fun e => e.steps > 80)).map (fun e => ofBool e.high), x = 0 := by
    intro x hx
    obtain ⟨e, he, rfl⟩ := List.mem_map.mp hx
    rw [List.mem_filter] at he
    obtain ⟨e', he', rfl⟩ := List.mem_map.mp (List.mem_of_mem_take he.1)
    have := h e' he' (by simpa [flipEv] using he.2)
    simp [flipEv, this, ofBool]
  have hne : (((evs.map flipEv).take 1000).filter (fun e => e.steps > 80)).map (fun e => ofBool e.high) ≠ [] := by
    obtain ⟨e, he, hs⟩ := hex
    apply List.ne_nil_of_mem (a := ofBool (flipEv e).high)
    rw [List.mem_map]
    refine ⟨flipEv e, ?_, rfl⟩
    rw [List.mem_filter]
    refine ⟨?_, by simpa [flipEv] using hs⟩
    rw [← List.map_take]
    exact List.mem_map_of_mem he
  have hlen : ((((evs.map flipEv).take 1000).filter (fun e => e.steps > 80)).map (fun e => ofBool e.high)).length ≤ 2^53 := by
    rw [List.length_map]
    exact (List.length_filter_le _ _).trans (by rw [List.length_take]; omega)
  simp only
  generalize (((evs.map flipEv).take 1000).filter (fun e => e.steps > 80)).map (fun e => ofBool e.high) = l at hall hlen hne
  cases l with
  | nil => exact absurd rfl hne
  | cons x l =>
    have hm : npMean (x :: l) = 0 := by
      rw [hmean _ (fun y hy => .inl (hall y hy)) (by simp) hlen]
      have hs : (x :: l).sum = 0 := by
        have : x :: l = List.replicate (x :: l).length 0 := List.eq_replicate_iff.mpr ⟨rfl, hall⟩
        rw [this]; simp
      rw [hs, zero_div]
      exact hf.toRounding.zero
    rw [hm, if_neg]
    · norm_num
    · rintro ⟨h2, -⟩
      have := hf.toRounding.nonneg (x := 1/10) (by norm_num)
      linarith

theorem alternates_flip : ∀ (ps : List Phase) (prev : Bool), Alternates prev ps → Alternates (!prev) (ps.map Phase.flip)
  | [], _, _ => trivial
  | p :: ps, prev, h => ⟨by have := h.1; simpa [Phase.flip] using this, alternates_flip ps p.level h.2⟩

theorem evsOf_length (fl : ℚ → ℚ) (baud : ℤ) : ∀ ps, (evsOf fl baud ps).length ≤ ps.length
  | [] => by simp [evsOf, addDuration]
  | [p] => by simp [evsOf, addDuration]
  | p :: q :: ps => by
    rw [evsOf_cons, List.length_cons, List.length_cons]
    exact Nat.succ_le_succ (evsOf_length fl baud (q :: ps))

/-- A long pause is seen among the first events. -/
theorem longPause_steps {fl : ℚ → ℚ} (hf : AccRounding fl) {baud : ℤ} (hb : 0 < baud ∧ baud ≤ 10^20) (ps : List Phase) (h : LongPause baud ps) :
    ∃ e ∈ (evsOf fl baud ps).take 1000, e.steps > 80 := by
  obtain ⟨i, p, q, hi, hp, hq, hd⟩ := h
  have hget : (evsOf fl baud ps)[i]? = some ⟨p.time, p.level, fl (fl (q.time - p.time) / fl (1 / baud))⟩ := by
    clear hi hd
    induction i generalizing ps with
    | zero =>
      match ps with
      | [] => simp at hp
      | [_] => simp at hq
      | a :: b :: ps => rw [evsOf_cons]; simp at hp hq; simp [hp, hq]
    | succ i ih =>
      match ps with
      | [] => simp at hp
      | [_] => simp at hq
      | a :: b :: ps =>
        rw [evsOf_cons, List.getElem?_cons_succ]
        rw [List.getElem?_cons_succ] at hp hq
        exact ih _ hp hq
  refine ⟨_, List.mem_of_getElem? (i := i) (by rw [List.getElem?_take_of_lt hi]; exact hget), ?_⟩
  have hb0 : (0:ℚ) < baud := by exact_mod_cast hb.1
  have h81 := steps_error hf hb (d := 81 / baud) (n := 81) (by norm_num) (by rw [div_mul_cancel₀ _ (ne_of_gt hb0)]; norm_num)
  have hle : fl (fl (81 / baud) / fl (1 / baud)) ≤ fl (fl (q.time - p.time) / fl (1 / baud)) := by
    apply hf.mono
    apply div_le_div_of_nonneg_right _ (hf.toRounding.nonneg (by positivity))
    apply hf.mono
    rw [div_le_iff₀ hb0]
    exact hd
  have := (abs_le.mp h81).1
  change fl (fl (q.time - p.time) / fl (1 / baud)) > 80
  linarith

/-- **C46/C47, inverted lines (partial: values from 1 to 2^(L-1) - 1).**  The table of an inverted line is decoded to the message, if inversion is asked for, or left to detection and there is a pause
of at least 81 bit times among the first 1000 phases. -/
theorem C47_inverted_partial {fl : ℚ → ℚ} (hf : AccRounding fl) {npMean : List ℚ → ℚ} (hmean : MeanOf fl npMean) (baud : ℤ) (hb : 0 < baud ∧ baud ≤ 10^20) (L : ℕ) (hL : L ≤ 64)
    (msg : List (ℕ × ℚ)) (hne : msg ≠ []) (hm : ∀ m ∈ msg, 1 ≤ m.1 ∧ m.1 < 2^(L - 1) ∧ m.1 < 0x110000) (lead : List Seg)
    (hlead : lead = [] ∨ ∃ g, lead = [⟨true, g, true, none⟩]) (ps : List Phase) (hps : PhasesOf baud ps (lead ++ line L msg))
    (hlen : 8 ≤ ((ps.map Phase.flip).flatMap Phase.rows).length ∧ ((ps.map Phase.flip).flatMap Phase.rows).length ≤ 2^53)
    (hsorted : (((ps.map Phase.flip).flatMap Phase.rows).map (·.1)).IsChain (· ≤ ·)) (inv : Option Bool) (hinv : inv = some true ∨ inv = none ∧ LongPause baud ps) :
    ∃ out, uartDecode fl npMean baud L inv ((ps.map Phase.flip).flatMap Phase.rows) = .ok out ∧ out.map (·.2) = msg.map (fun m => [m.1]) ∧ out = stamped ps (lead ++ line L msg) := by
  obtain ⟨hL1, hdet', hhigh, out, hout, ho⟩ := table_symbols hf baud hb L hL msg hne hm lead hlead ps hps
  have hdet := detect_ok hf hmean _ hdet'
  obtain ⟨hlev, prev, hal, hhead⟩ := table_phases baud L msg hne lead hlead ps hps
  have hdig := toDigital_phases hf.toRounding hmean (ps.map Phase.flip) (by
    obtain ⟨p, hp, hl⟩ := hlev false
    exact ⟨p.flip, List.mem_map_of_mem hp, by simp [Phase.flip, hl]⟩) hlen.2
  have hred := dropRedundant_phases (ps.map Phase.flip) ⟨!prev, alternates_flip ps prev hal, by
    intro p hp
    rw [List.head?_map, Option.mem_def, Option.map_eq_some_iff] at hp
    obtain ⟨q, hq, rfl⟩ := hp
    simp [Phase.flip, hhead q hq]⟩
  have hl53 : (evsOf fl baud ps).length ≤ 2^53 := by
    refine (evsOf_length fl baud ps).trans (le_trans ?_ hlen.2)
    rw [← List.length_map (f := Phase.flip) (as := ps)]
    generalize ps.map Phase.flip = qs
    induction qs with
    | nil => simp
    | cons q qs ih => rw [List.flatMap_cons, List.length_append, List.length_cons, Phase.rows, List.length_cons]; omega
  have hinit : uartInit fl npMean baud L inv ((ps.map Phase.flip).flatMap Phase.rows) = .ok (evsOf fl baud ps) := by
    unfold uartInit
    rw [if_neg (by omega), if_neg, if_neg (by omega)]
    · simp only
      rw [hdig, hred]
      change (match chooseInversion fl npMean inv (evsOf fl baud (ps.map Phase.flip)) with | .error e => _ | .ok b => _) = _
      rw [evsOf_flip]
      have hch : chooseInversion fl npMean inv ((evsOf fl baud ps).map flipEv) = .ok true := by
        rcases hinv with rfl | ⟨rfl, hl⟩
        · rfl
        · exact detect_flip hf hmean _ hdet' (longPause_steps hf hb ps hl)
      rw [hch]
      simp only
      rw [if_neg (by rw [not_not]; constructor <;> omega)]
      simp only [if_true]
      change (match detectInversion fl npMean (invertEvents npMean (evsOf fl baud (ps.map Phase.flip))) with | .error e => _ | .ok b => Except.ok (invertEvents npMean (evsOf fl baud (ps.map Phase.flip)))) = _
      rw [evsOf_flip, invert_flip hf.toRounding hmean _ hhigh hl53, hdet]
    · exact steps_sorted hf.toRounding _ hsorted
  refine ⟨out, ?_, ho⟩
  unfold uartDecode
  rw [hinit]
  exact hout

/-- A table for "H" at 9600 baud with two redundant rows and the mean of numpy: it meets the hypotheses above and decodes as stated. -/
def tableH : List Phase :=
  [⟨0, true, [1/1000]⟩, ⟨10/9600, false, []⟩, ⟨14/9600, true, [29/19200]⟩, ⟨15/9600, false, []⟩, ⟨17/9600, true, []⟩, ⟨18/9600, false, []⟩, ⟨19/9600, true, []⟩]

example : (tableH.flatMap Phase.rows).length = 9 ∧
    okSome (uartDecode b64 (fun l => b64 (l.sum / l.length)) 9600 8 none (tableH.flatMap Phase.rows)) = some [(some (10/9600), [72])] := by decide +kernel

/-- The same table after a pause of 100 bit times on an inverted line: found and decoded. -/
def tableHLate : List Phase := ⟨-100/9600, true, []⟩ :: tableH.tail

example : LongPause 9600 tableHLate :=
  ⟨0, ⟨-100/9600, true, []⟩, ⟨10/9600, false, []⟩, by norm_num, rfl, rfl, by norm_num⟩

example : okSome (uartDecode b64 (fun l => b64 (l.sum / l.length)) 9600 8 none ((tableHLate.map Phase.flip).flatMap Phase.rows)) = some [(some (10/9600), [72])] := by
  decide +kernel

example : PhasesOf 9600 tableHLate ([⟨true, 100, true, none⟩] ++ line 8 [(72, 0)]) := by
  have h : [⟨true, 100, true, none⟩] ++ line 8 [(72, 0)] = [⟨true, 100, true, none⟩, ⟨false, 4, false, some 72⟩, ⟨true, 1, false, none⟩, ⟨false, 2, false, none⟩, ⟨true, 1, false, none⟩,
    ⟨false, 1, false, none⟩, ⟨true, 1, true, none⟩] := by decide +kernel
  rw [h]
  refine .cons _ _ _ _ _ rfl (.inl rfl) (.cons _ _ _ _ _ rfl (.inr ?_) (.cons _ _ _ _ _ rfl (.inr ?_) (.cons _ _ _ _ _ rfl (.inr ?_) (.cons _ _ _ _ _ rfl (.inr ?_)
    (.cons _ _ _ _ _ rfl (.inr ?_) (.last _ _ rfl rfl))))))
  all_goals norm_num [abs_le]

theorem merge_low (k : ℕ) (d : ℚ) (i : Bool) (b : Option ℕ) (r : List Seg) :
    merge (List.replicate (k + 1) (⟨false, 1, false, none⟩ : Seg) ++ ⟨true, d, i, b⟩ :: r) = ⟨false, ((k + 1 : ℕ) : ℚ), false, none⟩ :: merge (⟨true, d, i, b⟩ :: r) := by
  have hhd := merge_head (⟨true, d, i, b⟩ :: r)
  obtain ⟨t, u, hm⟩ : ∃ t u, merge (⟨true, d, i, b⟩ :: r) = t :: u := by
    cases h : merge (⟨true, d, i, b⟩ :: r) with
    | nil => rw [h] at hhd; cases hhd
    | cons t u => exact ⟨t, u, rfl⟩
  have ht : t.level = true := by rw [hm] at hhd; simpa using hhd
  induction k with
  | zero =>
    rw [List.replicate_succ, List.replicate_zero, List.cons_append, List.nil_append, merge, hm]
    simp [ht]
  | succ k ih =>
    rw [List.replicate_succ, List.cons_append, merge, ih]
    simp only [if_true, Bool.and_false]
    congr 2
    push_cast
    ring

/-- The line of a byte of which only the highest bit is set. -/
theorem line_top (n : ℕ) (g : ℚ) : line (n + 1) [(2^n, g)] = [⟨false, ((n + 1 : ℕ) : ℚ), false, some (2^n)⟩, ⟨true, 2 + g, false, none⟩] := by
  have hb : (List.range n).map (fun i => ({ level := (2^n).testBit i, dur := 1 } : Seg)) = List.replicate n ⟨false, 1, false, none⟩ := by
    rw [List.eq_replicate_iff]
    refine ⟨by simp, fun s hs => ?_⟩
    obtain ⟨i, hi, rfl⟩ := List.mem_map.mp hs
    have : n ≠ i := by have := List.mem_range.mp hi; omega
    simp [this]
  have hh : merge [(⟨true, 1, false, none⟩ : Seg), ⟨true, 1 + g, true, none⟩] = [⟨true, 2 + g, false, none⟩] := by
    simp [merge]; ring
  unfold line
  rw [List.flatMap_cons, List.flatMap_nil, List.append_nil]
  unfold sendByte
  rw [List.range_succ, List.map_append, hb]
  simp only [List.map_cons, List.map_nil, Nat.testBit_two_pow_self, List.cons_append, List.append_assoc, List.nil_append]
  cases n with
  | zero =>
    rw [List.replicate_zero, List.nil_append, merge, hh]
    simp
  | succ n =>
    rw [merge, merge_low, hh]
    simp only [if_true, Bool.and_false]
    congr 2
    push_cast
    ring

/-- **C47 violated: the highest bit alone.**  A byte of which only the highest bit is set keeps the line low for exactly as many bit times as a frame has.  The least delay of its rising edge, far
below a tenth of a bit time, changes the result: exactly in time there is a symbol, delayed there is none. -/
theorem C47_tick_violated {fl : ℚ → ℚ} (hf : Rounding fl) (n : ℕ) (hn : n < 64) (g : ℚ) (hg : 0 ≤ g) (δ : ℚ) (h0 : 0 < δ) (h1 : δ ≤ 1/10) (t t' t'' : ℚ) :
    Observes [⟨t, false, ((n + 1 : ℕ) : ℚ)⟩, ⟨t', true, 2 + g⟩] (line (n + 1) [(2^n, g)]) ∧
    Observes [⟨t, false, ((n + 1 : ℕ) : ℚ) + δ⟩, ⟨t'', true, 2 + g⟩] (line (n + 1) [(2^n, g)]) ∧
    getSymbols fl (n + 1) [⟨t, false, ((n + 1 : ℕ) : ℚ)⟩, ⟨t', true, 2 + g⟩] = .ok [(some t, [])] ∧
    getSymbols fl (n + 1) [⟨t, false, ((n + 1 : ℕ) : ℚ) + δ⟩, ⟨t'', true, 2 + g⟩] = .error .valueError := by
  refine ⟨⟨[], by simp, ?_⟩, ⟨[], by simp, ?_⟩, ?_, ?_⟩
  · rw [line_top]
    simp [Shows]
  · rw [line_top]
    have : δ ≤ 10⁻¹ := by linarith
    simp [Shows, abs_of_pos h0, this]
  · have hs : fl (((n + 1 : ℕ) : ℚ) - 1) = ((n : ℤ) : ℚ) := by
      have : ((n + 1 : ℕ) : ℚ) - 1 = (n : ℚ) := by push_cast; ring
      rw [this, hf.exactNat n (by omega)]
      push_cast; rfl
    have hle : ¬ ((n + 1 : ℕ) : ℚ) > (((n : ℤ) + 1 : ℤ) : ℚ) := by push_cast; linarith
    have hr : pyRound ((n : ℤ) : ℚ) = n := pyRound_intCast _
    have h2 : 1 ≤ pyRound (2 + g) := by
      have := pyRound_mono (show ((2 : ℤ) : ℚ) ≤ 2 + g by push_cast; linarith)
      rw [pyRound_intCast] at this
      omega
    have hmin : min (2 + g) 0 = (0 : ℚ) := min_eq_right (by linarith)
    have hr0 : pyRound 0 = 0 := pyRound_zero
    have hend : (n : ℤ) + 1 ≤ n + pyRound (2 + g) := by omega
    unfold getSymbols
    simp only [uartLoop, uartStep, UartState.idle, if_neg hle, Bool.false_eq_true, if_false, hs, uartFrame, uartBits, and_false, hr, zero_add]
    rw [if_neg (by simp)]
    simp only
    by_cases hc : (n : ℚ) + 1 < 2 + g
    · simp [hc, npChr]
    · have hn0 : ¬ ((n : ℤ) < 0) := by omega
      simp [hc, npChr, h2, hmin, hr0, pyShl, hend, hn0]
  · have hlt : (((n : ℤ) + 1 : ℤ) : ℚ) < ((n + 1 : ℕ) : ℚ) + δ := by push_cast; linarith
    unfold getSymbols
    simp only [uartLoop, uartStep]
    rw [if_pos hlt]
    simp [UartState.idle]

/-- A byte of 128, a thousandth of a bit time late. -/
example : (getSymbols b64 8 [⟨0, false, 8⟩, ⟨8, true, 2⟩]).toOption = some [(some 0, [])] ∧ (getSymbols b64 8 [⟨0, false, 8 + 1/1000⟩, ⟨8, true, 2⟩]).toOption = none := by decide +kernel

end Verif.Props

import Verif.Model.Uart
import Verif.Lemmas.Num
import Mathlib.Data.List.Forall2
import Mathlib.Tactic.Linarith
import Mathlib.Tactic.Ring
import Mathlib.Tactic.NormNum
import Mathlib.Tactic.Positivity

/-! Lemmas on the UART decoder. -/

namespace Verif.Model
open Verif.Py

/-- The event shows a level for about `n` ticks. -/
def NearN (e : UartEv) (r : Bool × ℕ) : Prop := e.high = r.1 ∧ |e.steps - r.2| ≤ 1/10

/-- Value of runs from bit `p` on. -/
def runsVal : ℕ → List (Bool × ℕ) → ℤ
  | _, [] => 0
  | p, (b, n) :: l => (if b then (2^n - 1) * 2^p else 0) + runsVal (p + n) l

/-- Number of ticks. -/
def runsLen (l : List (Bool × ℕ)) : ℕ := (l.map (·.2)).sum

section
variable {fl : ℚ → ℚ}

theorem npChr_ok {s : ℤ} (h0 : 0 < s) (h1 : s < 0x110000) : npChr s = .ok [s.toNat] := by
  unfold npChr
  rw [if_neg (by omega), if_pos h1, if_neg (by omega)]

/-- A high run inside a frame. -/
theorem step_high (hf : Rounding fl) {L p n : ℕ} (hn : 1 ≤ n) (hp : p + n < L) (st : UartState) (hst : st.pos = some (p : ℤ))
    (e : UartEv) (he : NearN e (true, n)) :
    uartStep fl L st e = .ok ({ st with pos := some ((p + n : ℕ) : ℤ), symbol := st.symbol + (2^n - 1) * 2^p }, []) := by
  obtain ⟨h1, h2⟩ := he
  simp only at h1 h2
  have hr : pyRound e.steps = (n : ℤ) := pyRound_eq_of_lt (by
    refine lt_of_le_of_lt ?_ (show (1:ℚ)/10 < 1/2 by norm_num); exact_mod_cast h2)
  have hab := abs_le.mp h2
  have hpn : (p : ℚ) + n + 1 ≤ L := by exact_mod_cast hp
  have hp0 : (0:ℚ) ≤ p := by positivity
  have hL : ¬ (e.steps > ((L : ℤ) : ℚ)) := by push_cast; linarith [hab.2]
  have hc : pyRound (min e.steps (((L : ℤ) - p - 1 : ℤ) : ℚ)) = n := by
    refine pyRound_eq_of_lt ?_
    push_cast
    rw [abs_lt]
    constructor
    · rw [lt_sub_iff_add_lt, lt_min_iff]; constructor <;> linarith [hab.1]
    · rw [sub_lt_iff_lt_add, min_lt_iff]; left; linarith [hab.2]
  have hoff : ¬ (|fl (e.steps - (n : ℤ))| > fl (1/10)) := by
    rw [not_lt, abs_le]
    push_cast
    constructor
    · rw [← hf.odd]; exact hf.mono hab.1
    · exact hf.mono hab.2
  unfold uartStep
  rw [if_neg hL, hst]
  simp only
  unfold uartFrame uartBits
  rw [hr, h1, if_pos ⟨by omega, rfl⟩]
  simp only [hc]
  rw [if_neg (by omega)]
  unfold pyShl
  rw [show min (p : ℤ) (L - 1) = p by omega, if_neg (by omega)]
  simp only [Int.toNat_natCast]
  rw [if_neg]
  · push_cast; rfl
  · rintro (h | h)
    · omega
    · exact hoff h.1

/-- A low run inside a frame that does not complete it. -/
theorem step_low {L p n : ℕ} (hp : p + n < L) (st : UartState) (hst : st.pos = some (p : ℤ))
    (e : UartEv) (he : NearN e (false, n)) :
    uartStep fl L st e = .ok ({ st with pos := some ((p + n : ℕ) : ℤ) }, []) := by
  obtain ⟨h1, h2⟩ := he
  simp only at h1 h2
  have hr : pyRound e.steps = (n : ℤ) := pyRound_eq_of_lt (by
    refine lt_of_le_of_lt ?_ (show (1:ℚ)/10 < 1/2 by norm_num); exact_mod_cast h2)
  have hab := abs_le.mp h2
  have hpn : (p : ℚ) + n + 1 ≤ L := by exact_mod_cast hp
  have hp0 : (0:ℚ) ≤ p := by positivity
  have hL : ¬ (e.steps > ((L : ℤ) : ℚ)) := by push_cast; linarith [hab.2]
  unfold uartStep
  rw [if_neg hL, hst]
  simp only
  unfold uartFrame uartBits
  rw [hr, h1, if_neg (by simp)]
  simp only
  rw [if_neg]
  · push_cast; rfl
  · rintro (h | h)
    · omega
    · cases h.2

/-- The low run that completes a frame. -/
theorem step_last {L p n : ℕ} (hp : p + n = L) (hn : n < L) (st : UartState) (hst : st.pos = some (p : ℤ))
    (hs : 0 < st.symbol ∧ st.symbol < 0x110000) (e : UartEv) (he : NearN e (false, n)) :
    uartStep fl L st e = .ok (.idle, [(st.start, [st.symbol.toNat])]) := by
  obtain ⟨h1, h2⟩ := he
  simp only at h1 h2
  have hr : pyRound e.steps = (n : ℤ) := pyRound_eq_of_lt (by
    refine lt_of_le_of_lt ?_ (show (1:ℚ)/10 < 1/2 by norm_num); exact_mod_cast h2)
  have hab := abs_le.mp h2
  have hpn : (n : ℚ) + 1 ≤ L := by exact_mod_cast hn
  have hL : ¬ (e.steps > ((L : ℤ) : ℚ)) := by push_cast; linarith [hab.2]
  unfold uartStep
  rw [if_neg hL, hst]
  simp only
  unfold uartFrame uartBits
  rw [hr, h1, if_neg (by simp)]
  simp only
  rw [if_pos (.inl (by omega)), npChr_ok hs.1 hs.2]

/-- The low run that starts a frame. -/
theorem step_start (hf : Rounding fl) {L k : ℕ} (hk : 1 ≤ k) (hkL : k < L) (hL : L ≤ 2^40) (e : UartEv) (he : NearN e (false, k)) :
    uartStep fl L .idle e = .ok (⟨some ((k - 1 : ℕ) : ℤ), 0, some e.time⟩, []) := by
  obtain ⟨h1, h2⟩ := he
  simp only at h1 h2
  have hab := abs_le.mp h2
  have hpn : (k : ℚ) + 1 ≤ L := by exact_mod_cast hkL
  have hLt : ¬ (e.steps > ((L : ℤ) : ℚ)) := by push_cast; linarith [hab.2]
  have hr : pyRound (fl (e.steps - 1)) = ((k - 1 : ℕ) : ℤ) := by
    refine pyRound_eq_of_lt ?_
    have b : ∀ d : ℤ, |d| ≤ 1 → fl ((k:ℚ) - 1 + d / 4) = (k:ℚ) - 1 + d/4 := by
      intro d hd
      rw [abs_le] at hd
      have := hf.exact (4 * ((k:ℤ) - 1) + d) (-2) (by rw [abs_le]; constructor <;> omega) (by norm_num)
      rw [show ((2:ℚ)^(-2:ℤ)) = 1/4 by norm_num] at this
      push_cast at this
      rw [show ((k:ℚ) - 1 + d / 4) = (4 * ((k:ℚ) - 1) + d) * (1/4) by ring]
      exact this
    have l := hf.mono (show (k:ℚ) - 1 + ((-1 : ℤ) : ℚ) / 4 ≤ e.steps - 1 by push_cast; linarith [hab.1])
    have u := hf.mono (show e.steps - 1 ≤ (k:ℚ) - 1 + ((1 : ℤ) : ℚ) / 4 by push_cast; linarith [hab.2])
    rw [b _ (by norm_num)] at l u
    push_cast at l u
    rw [abs_lt]
    push_cast [Nat.cast_sub hk]
    constructor <;> linarith
  unfold uartStep
  rw [if_neg hLt]
  simp only [UartState.idle]
  rw [h1, if_neg (by simp)]
  unfold uartFrame uartBits
  rw [hr, if_neg (by simp)]
  simp only
  rw [if_neg]
  · congr 4; omega
  · rintro (h | h)
    · omega
    · cases h.2

/-- Idle phases. -/
theorem step_idle {L : ℤ} (e : UartEv) (he : e.high = true) : uartStep fl L .idle e = .ok (.idle, []) := by
  unfold uartStep
  rw [he]
  by_cases h : e.steps > L
  · rw [if_pos h]; rfl
  · rw [if_neg h]; rfl

theorem loop_cons {L : ℤ} {st st' : UartState} {e : UartEv} {es : List UartEv} {out : List (Option ℚ × List ℕ)} (h : uartStep fl L st e = .ok (st', out)) :
    uartLoop fl L st (e :: es) = match uartLoop fl L st' es with | .error x => .error x | .ok rest => .ok (out ++ rest) := by
  rw [uartLoop, h]; rfl

/-- Runs of a frame after its first bit. -/
theorem loop_runs (hf : Rounding fl) {L : ℕ} (rest : List UartEv) (r : List (Option ℚ × List ℕ)) (hrest : uartLoop fl L .idle rest = .ok r) :
    ∀ (rs : List (Bool × ℕ)) (evs : List UartEv) (p : ℕ) (st : UartState), List.Forall₂ NearN evs rs → rs ≠ [] → (∀ q ∈ rs, 1 ≤ q.2) →
      p + runsLen rs = L → (∀ q ∈ rs.getLast?, q.1 = false) → (1 ≤ p ∨ ∀ q ∈ rs.head?, q.1 = true) → st.pos = some (p : ℤ) →
      0 < st.symbol + runsVal p rs → st.symbol + runsVal p rs < 0x110000 →
      uartLoop fl L st (evs ++ rest) = .ok ((st.start, [(st.symbol + runsVal p rs).toNat]) :: r)
  | [], evs, p, st, _, h, _, _, _, _, _, _, _ => absurd rfl h
  | [(b, n)], evs, p, st, hobs, _, hpos, hlen, hlast, hp, hst, hs0, hs1 => by
    cases hobs with
    | cons he ht =>
      cases ht
      have hb : b = false := hlast (b, n) (by simp)
      subst hb
      have hn : n < L := by
        simp only [runsLen, List.map_cons, List.map_nil, List.sum_cons, List.sum_nil] at hlen
        rcases hp with h | h
        · omega
        · cases h (false, n) (by simp)
      have hl : p + n = L := by simpa [runsLen] using hlen
      simp only [runsVal, Bool.false_eq_true, if_false, add_zero] at hs0 hs1 ⊢
      rw [List.cons_append, List.nil_append, loop_cons (step_last hl hn st hst ⟨hs0, hs1⟩ _ he), hrest]
      rfl
  | (b, n) :: (c, m) :: rs, evs, p, st, hobs, _, hpos, hlen, hlast, hp, hst, hs0, hs1 => by
    cases hobs with
    | @cons e _ es _ he ht =>
      have hn : 1 ≤ n := hpos (b, n) (by simp)
      have hm : 1 ≤ m := hpos (c, m) (by simp)
      have hlen' : p + n + runsLen ((c, m) :: rs) = L := by
        rw [← hlen]; simp only [runsLen, List.map_cons, List.sum_cons]; omega
      have hlt : p + n < L := by
        have : m ≤ runsLen ((c, m) :: rs) := by simp only [runsLen, List.map_cons, List.sum_cons]; omega
        omega
      have hlast' : ∀ q ∈ ((c, m) :: rs).getLast?, q.1 = false := by
        intro q hq; apply hlast; simpa [List.getLast?_cons_cons] using hq
      rw [List.cons_append]
      cases b with
      | true =>
        rw [loop_cons (step_high hf hn hlt st hst e he)]
        have hv : st.symbol + runsVal p ((true, n) :: (c, m) :: rs) = (st.symbol + (2^n - 1) * 2^p) + runsVal (p + n) ((c, m) :: rs) := by
          rw [runsVal]; simp only [if_true]; ring
        rw [hv] at hs0 hs1 ⊢
        have := loop_runs hf rest r hrest ((c, m) :: rs) es (p + n) { st with pos := some ((p + n : ℕ) : ℤ), symbol := st.symbol + (2^n - 1) * 2^p } ht (by simp)
          (fun q hq => hpos q (List.mem_cons_of_mem _ hq)) hlen' hlast' (.inl (by omega)) rfl hs0 hs1
        rw [this]; rfl
      | false =>
        rw [loop_cons (step_low hlt st hst e he)]
        have hv : st.symbol + runsVal p ((false, n) :: (c, m) :: rs) = st.symbol + runsVal (p + n) ((c, m) :: rs) := by
          rw [runsVal]; simp
        rw [hv] at hs0 hs1 ⊢
        have := loop_runs hf rest r hrest ((c, m) :: rs) es (p + n) { st with pos := some ((p + n : ℕ) : ℤ) } ht (by simp)
          (fun q hq => hpos q (List.mem_cons_of_mem _ hq)) hlen' hlast' (.inl (by omega)) rfl hs0 hs1
        rw [this]; rfl

/-! ### Run lengths -/

/-- Joins equal neighbours. -/
def rle : List Bool → List (Bool × ℕ)
  | [] => []
  | b :: l =>
    match rle l with
    | [] => [(b, 1)]
    | (c, n) :: t => if b = c then (c, n + 1) :: t else (b, 1) :: (c, n) :: t

theorem rle_pos : ∀ (l : List Bool), ∀ q ∈ rle l, 1 ≤ q.2
  | [] => by simp [rle]
  | b :: l => by
    have ih := rle_pos l
    rw [rle]
    cases h : rle l with
    | nil => simp
    | cons q t =>
      obtain ⟨c, n⟩ := q
      rw [h] at ih
      simp only
      split_ifs with hb
      · intro q hq
        rcases List.mem_cons.mp hq with rfl | hq
        · simp
        · exact ih q (List.mem_cons_of_mem _ hq)
      · intro q hq
        rcases List.mem_cons.mp hq with rfl | hq
        · simp
        · exact ih q hq

theorem rle_ne_nil {b : Bool} {l : List Bool} : rle (b :: l) ≠ [] := by
  rw [rle]
  cases h : rle l with
  | nil => simp
  | cons q t => obtain ⟨c, n⟩ := q; simp only; split_ifs <;> simp

theorem rle_head (b : Bool) (l : List Bool) : ∃ n t, rle (b :: l) = (b, n) :: t ∧ ∀ q ∈ t.head?, q.1 ≠ b := by
  induction l generalizing b with
  | nil => exact ⟨1, [], by simp [rle], by simp⟩
  | cons c l ih =>
    obtain ⟨n, t, h, h'⟩ := ih c
    rw [rle, h]
    by_cases hb : b = c
    · subst hb; exact ⟨n + 1, t, by simp, h'⟩
    · refine ⟨1, (c, n) :: t, by simp [hb], ?_⟩
      intro q hq
      simp only [List.head?_cons, Option.mem_def, Option.some.injEq] at hq
      subst hq
      exact fun h => hb h.symm

theorem rle_len : ∀ (l : List Bool), runsLen (rle l) = l.length
  | [] => rfl
  | b :: l => by
    have ih := rle_len l
    rw [rle]
    cases h : rle l with
    | nil => rw [h] at ih; simp only [runsLen, List.map_nil, List.sum_nil] at ih; simp [runsLen, ← ih]
    | cons q t =>
      obtain ⟨c, n⟩ := q
      rw [h] at ih
      simp only [runsLen, List.map_cons, List.sum_cons] at ih
      simp only
      split_ifs with hb <;> simp only [runsLen, List.map_cons, List.sum_cons, List.length_cons] <;> omega

theorem rle_last : ∀ (l : List Bool), (rle l).getLast?.map (·.1) = l.getLast?
  | [] => rfl
  | [b] => rfl
  | b :: c :: l => by
    have ih := rle_last (c :: l)
    rw [rle]
    cases h : rle (c :: l) with
    | nil => exact absurd h rle_ne_nil
    | cons q t =>
      obtain ⟨d, n⟩ := q
      rw [h] at ih
      rw [List.getLast?_cons_cons, ← ih]
      simp only
      split_ifs with hb
      · cases t with
        | nil => simp
        | cons x t => simp [List.getLast?_cons_cons]
      · rw [List.getLast?_cons_cons]

/-- Value of bits, lowest first. -/
def bitsVal : List Bool → ℤ
  | [] => 0
  | b :: l => (if b then 1 else 0) + 2 * bitsVal l

theorem runsVal_shift : ∀ (l : List (Bool × ℕ)) (p q : ℕ), runsVal (p + q) l = 2^q * runsVal p l
  | [], _, _ => by simp [runsVal]
  | (b, n) :: l, p, q => by
    rw [runsVal, runsVal, show p + q + n = p + n + q by omega, runsVal_shift l (p + n) q]
    cases b <;> simp [pow_add] <;> ring

theorem runsVal_rle : ∀ (l : List Bool), runsVal 0 (rle l) = bitsVal l
  | [] => rfl
  | b :: l => by
    have ih := runsVal_rle l
    rw [rle, bitsVal, ← ih]
    cases h : rle l with
    | nil => cases b <;> simp [runsVal]
    | cons q t =>
      obtain ⟨c, n⟩ := q
      simp only
      split_ifs with hb hc hc
      all_goals simp only [runsVal]
      · subst hb
        simp only [hc, if_true]
        rw [show 0 + (n + 1) = 0 + n + 1 by omega, runsVal_shift t (0 + n) 1]
        ring
      · subst hb
        simp only [hc, Bool.false_eq_true, if_false]
        rw [show 0 + (n + 1) = 0 + n + 1 by omega, runsVal_shift t (0 + n) 1]
        ring
      · have : c = false := by cases c <;> simp_all
        subst this
        simp only [hc, if_true, Bool.false_eq_true, if_false]
        rw [show 0 + 1 + n = 0 + n + 1 by omega, runsVal_shift t (0 + n) 1]
        ring
      · have : c = true := by cases c <;> simp_all
        subst this
        simp only [if_true, hc, Bool.false_eq_true, if_false]
        rw [show 0 + 1 + n = 0 + n + 1 by omega, runsVal_shift t (0 + n) 1]
        ring

theorem bitsVal_testBit : ∀ (L b : ℕ), b < 2^L → bitsVal ((List.range L).map (fun i => b.testBit i)) = b
  | 0, b, h => by have : b = 0 := by omega
                  subst this; rfl
  | L + 1, b, h => by
    rw [List.range_succ_eq_map, List.map_cons, List.map_map, bitsVal]
    have ih := bitsVal_testBit L (b / 2) (by rw [pow_succ] at h; omega)
    have he : (List.range L).map ((fun i => b.testBit i) ∘ Nat.succ) = (List.range L).map (fun i => (b / 2).testBit i) := by
      refine List.map_congr_left (fun i _ => ?_)
      simp [Nat.testBit_succ]
    rw [he, ih]
    have : b.testBit 0 = decide (b % 2 = 1) := Nat.testBit_zero b
    rw [this]
    rcases Nat.mod_two_eq_zero_or_one b with h2 | h2
    · simp only [h2]; push_cast; simp; omega
    · simp only [h2]; push_cast; simp; omega

/-- The bits of a value, lowest first. -/
def dataBits (L b : ℕ) : List Bool := (List.range L).map (fun i => b.testBit i)

/-- The runs of a frame. -/
theorem frame_runs {L b : ℕ} (hb : 1 ≤ b) (hbL : b < 2^(L - 1)) :
    ∃ k t, rle (false :: dataBits L b) = (false, k) :: t ∧ 1 ≤ k ∧ k < L ∧ t ≠ [] ∧ (k - 1) + runsLen t = L ∧
      (∀ q ∈ t, 1 ≤ q.2) ∧ (∀ q ∈ t.getLast?, q.1 = false) ∧ (∀ q ∈ t.head?, q.1 = true) ∧ runsVal (k - 1) t = b := by
  obtain ⟨k, t, h, hh⟩ := rle_head false (dataBits L b)
  have hL : 2 ≤ L := by
    by_contra hc
    have : L - 1 = 0 := by omega
    rw [this] at hbL
    simp only [pow_zero] at hbL
    omega
  have hk : 1 ≤ k := rle_pos (false :: dataBits L b) (false, k) (by rw [h]; simp)
  have hpos : ∀ q ∈ t, 1 ≤ q.2 := fun q hq => rle_pos (false :: dataBits L b) q (by rw [h]; exact List.mem_cons_of_mem _ hq)
  have hlen : k + runsLen t = L + 1 := by
    have := rle_len (false :: dataBits L b)
    rw [h] at this
    simpa [runsLen, dataBits] using this
  have hval : runsVal k t = 2 * (b : ℤ) := by
    have := runsVal_rle (false :: dataBits L b)
    rw [h, runsVal, bitsVal, dataBits, bitsVal_testBit L b (lt_of_lt_of_le hbL (Nat.pow_le_pow_right (by norm_num) (by omega)))] at this
    simpa using this
  have hval' : runsVal (k - 1) t = b := by
    have := runsVal_shift t (k - 1) 1
    rw [show k - 1 + 1 = k by omega, hval] at this
    omega
  have ht : t ≠ [] := by
    rintro rfl
    simp only [runsVal] at hval
    omega
  have hlast : ∀ q ∈ t.getLast?, q.1 = false := by
    have := rle_last (false :: dataBits L b)
    rw [h] at this
    cases ht' : t with
    | nil => exact absurd ht' ht
    | cons x t' =>
      rw [ht', List.getLast?_cons_cons] at this
      have hl : (false :: dataBits L b).getLast? = some false := by
        obtain ⟨M, rfl⟩ : ∃ M, L = M + 1 := ⟨L - 1, by omega⟩
        rw [dataBits, List.range_succ, List.map_append, List.map_cons, List.map_nil, ← List.cons_append, List.getLast?_concat]
        rw [Nat.testBit_lt_two_pow (by simpa using hbL)]
      rw [hl] at this
      intro q hq
      rw [Option.mem_def] at hq
      rw [hq] at this
      simpa using this
  have hhead : ∀ q ∈ t.head?, q.1 = true := by
    intro q hq
    have := hh q hq
    cases hq1 : q.1 <;> simp_all
  have hkL : k < L := by
    cases t with
    | nil => exact absurd rfl ht
    | cons x t' =>
      cases t' with
      | nil =>
        have h1 := hlast x (by simp)
        have h2 := hhead x (by simp)
        rw [h1] at h2; cases h2
      | cons y t' =>
        have h1 := hpos x (by simp)
        have h2 := hpos y (by simp)
        simp only [runsLen, List.map_cons, List.sum_cons] at hlen
        omega
  exact ⟨k, t, h, hk, hkL, ht, by omega, hpos, hlast, hhead, hval'⟩

/-- A whole frame. -/
theorem loop_frame (hf : Rounding fl) {L b : ℕ} (hL : L ≤ 2^40) (hb : 1 ≤ b) (hbL : b < 2^(L - 1)) (hbc : b < 0x110000)
    (rest : List UartEv) (r : List (Option ℚ × List ℕ)) (hrest : uartLoop fl L .idle rest = .ok r)
    (e : UartEv) (es : List UartEv) (hobs : List.Forall₂ NearN (e :: es) (rle (false :: dataBits L b))) :
    uartLoop fl L .idle ((e :: es) ++ rest) = .ok ((some e.time, [b]) :: r) := by
  obtain ⟨k, t, h, hk, hkL, ht, hlen, hpos, hlast, hhead, hval⟩ := frame_runs hb hbL
  rw [h] at hobs
  cases hobs with
  | cons he hes =>
    rw [List.cons_append, loop_cons (step_start hf hk hkL hL e he)]
    have := loop_runs hf rest r hrest t es (k - 1) ⟨some ((k - 1 : ℕ) : ℤ), 0, some e.time⟩ hes ht hpos hlen hlast (.inr hhead) rfl
      (by rw [hval]; simp only [zero_add]; exact_mod_cast hb) (by rw [hval]; simp only [zero_add]; exact_mod_cast hbc)
    rw [this, hval]
    simp

theorem forall₂_split {α β : Type} {R : α → β → Prop} : ∀ (l : List α) (a b : List β), List.Forall₂ R l (a ++ b) →
    ∃ l1 l2, l = l1 ++ l2 ∧ List.Forall₂ R l1 a ∧ List.Forall₂ R l2 b
  | l, [], b, h => ⟨[], l, rfl, .nil, h⟩
  | l, x :: a, b, h => by
    cases h with
    | @cons y _ l' _ h1 h2 =>
      obtain ⟨l1, l2, e, f1, f2⟩ := forall₂_split l' a b h2
      exact ⟨y :: l1, l2, by rw [e, List.cons_append], .cons h1 f1, f2⟩

end

end Verif.Model

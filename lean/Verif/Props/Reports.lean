import Verif.Lemmas.Reports
import Verif.Props.Recorder

/-!
# Paths, energy, statistics and checks of recordings (C38-C45)
-/

namespace Verif.Props
open Verif.Py Verif.Model

/-! ## C38: the path of a new recording -/

/-- The number a string of decimal digits stands for. -/
def decValue (n : Name) : ℕ := n.foldl (fun a c => 10 * a + (c.toNat - '0'.toNat)) 0

theorem decValue_dec (k : ℕ) : decValue (dec k) = k ∧ ∀ c ∈ dec k, c.isDigit = true := by
  have hd : ∀ d, d < 10 → (Nat.digitChar d).toNat - '0'.toNat = d ∧ (Nat.digitChar d).isDigit = true := by
    intro d hd; interval_cases d <;> decide
  have key : ∀ l : List ℕ, (∀ d ∈ l, d < 10) → decValue ((l.map Nat.digitChar).reverse) = Nat.ofDigits 10 l := by
    intro l hl
    induction l with
    | nil => rfl
    | cons d l ih =>
      have h1 := ih (fun d hd => hl d (by simp [hd]))
      unfold decValue at h1 ⊢
      rw [List.map_cons, List.reverse_cons, List.foldl_append, h1, Nat.ofDigits_cons]
      simp only [List.foldl_cons, List.foldl_nil, (hd d (hl d (by simp))).1]
      push_cast
      ring
  unfold dec
  split
  · rename_i h; rw [h]; exact ⟨by decide, by decide⟩
  · refine ⟨?_, ?_⟩
    · rw [key _ (fun d hd => Nat.digits_lt_base (by norm_num) hd), Nat.ofDigits_digits]
    · intro c hc
      simp only [List.mem_reverse, List.mem_map] at hc
      obtain ⟨d, h1, rfl⟩ := hc
      exact (hd d (Nat.digits_lt_base (by norm_num) h1)).2

/-- The file name `base.k.ext`. -/
def numbered (base : Name) (k : ℕ) (suffix : Name) : Name := base ++ '.' :: dec k ++ suffix

theorem splitName_append (n : Name) : (splitName n).1 ++ (splitName n).2 = n := by
  rcases splitName_spec n with h | ⟨x, t, -, -, -, h1, h2⟩
  · rw [h]; simp
  · rw [h2, h1]

theorem splitName_fst_ne (n : Name) (h : n ≠ []) : (splitName n).1 ≠ [] := by
  rcases splitName_spec n with h1 | ⟨x, t, hx, -, -, -, h2⟩
  · rw [h1]; exact h
  · rw [h2]; exact hx

/-- **C38.**  If the name is taken by a file and neither overwriting nor modifying is requested, the search ends after at most one try more than
there are files, with a free name in the same directory; it consists of the beginning of the name, the smallest free counter, and the suffix. -/
theorem C38_unique_path (existing : List Name) (isFile : Name → Bool) (name : Name) (h : name ∈ existing) (hf : isFile name = true) (hne : name ≠ []) :
    ∃ base j, base <+: name ∧ base ≠ [] ∧ numbered base j (splitName name).2 ∉ existing ∧
      (∀ i < j, numbered base i (splitName name).2 ∈ existing) ∧
      (∀ fuel > existing.length, choosePath existing isFile false false name fuel = .ok (some (numbered base j (splitName name).2))) ∧
      (splitName (numbered base j (splitName name).2)).2 = if (splitName name).2 = [] then '.' :: dec j else (splitName name).2 := by
  have hst : (splitName name).1 ≠ [] := splitName_fst_ne name hne
  have hcand : ∀ k, candidate (splitName name).1 (splitName name).2 k = numbered (splitName (splitName name).1).1 k (splitName name).2 := by
    intro k; simp [candidate, withSuffix, numbered]
  have hbase : (splitName (splitName name).1).1 ≠ [] := splitName_fst_ne _ hst
  have hfree : ∃ j, numbered (splitName (splitName name).1).1 j (splitName name).2 ∉ existing ∧ j ≤ existing.length := by
    obtain ⟨j, h1, h2⟩ := exists_free existing (splitName name).1 (splitName name).2
    exact ⟨j, by rw [← hcand]; exact h2, h1⟩
  have hfree' : ∃ j, numbered (splitName (splitName name).1).1 j (splitName name).2 ∉ existing := hfree.imp (fun _ h => h.1)
  refine ⟨(splitName (splitName name).1).1, Nat.find hfree', ?_, hbase, Nat.find_spec hfree', ?_, ?_, ?_⟩
  · have h1 : (splitName (splitName name).1).1 <+: (splitName name).1 := ⟨_, splitName_append _⟩
    exact h1.trans ⟨_, splitName_append _⟩
  · intro i hi
    exact not_not.1 (Nat.find_min hfree' hi)
  · intro fuel hfuel
    obtain ⟨j, h1, h2⟩ := hfree
    have hle : Nat.find hfree' ≤ existing.length := (Nat.find_min' hfree' h1).trans h2
    unfold choosePath
    rw [if_neg (by simp [h]), if_neg (by simp [hf])]
    rw [uniqueLoop_spec existing (splitName name).1 (splitName name).2 (Nat.find hfree') (by rw [hcand]; exact Nat.find_spec hfree')
      fuel 0 (Nat.zero_le _) (fun i _ hi => by rw [hcand]; exact not_not.1 (Nat.find_min hfree' hi)) (by omega), hcand]
  · generalize Nat.find hfree' = j
    rcases splitName_spec name with h1 | ⟨x, t, hx, ht, hd, -, h2⟩
    · rw [h1, if_pos rfl]
      have : numbered (splitName (name, ([] : Name)).1).1 j (name, ([] : Name)).2 = (splitName name).1 ++ '.' :: dec j := by simp [numbered]
      rw [this, splitName_eq _ _ hst (dec_ne_nil j) (dot_not_mem_dec j)]
    · rw [h2, if_neg (by simp)]
      have : numbered (splitName (x, '.' :: t).1).1 j (x, '.' :: t).2 = ((splitName x).1 ++ '.' :: dec j) ++ '.' :: t := by simp [numbered]
      rw [this, splitName_eq _ _ (by simp) ht hd]

/-- **C38, no file is destroyed.**  Whatever name is given and however the search goes, without `modify` and `overwrite` the chosen path does not exist. -/
theorem C38_never_existing (existing : List Name) (isFile : Name → Bool) (name n : Name) (fuel : ℕ)
    (h : choosePath existing isFile false false name fuel = .ok (some n)) : n ∉ existing := by
  unfold choosePath at h
  have loop : ∀ fuel k, uniqueLoop existing (splitName name).1 (splitName name).2 fuel k = some n → n ∉ existing := by
    intro fuel
    induction fuel with
    | zero => intro k h; cases h
    | succ fuel ih =>
      intro k h
      unfold uniqueLoop at h
      dsimp only at h
      by_cases hm : candidate (splitName name).1 (splitName name).2 k ∈ existing
      · rw [if_pos hm] at h; exact ih _ h
      · rw [if_neg hm] at h; cases h; exact hm
  by_cases h1 : name ∈ existing
  · rw [if_neg (by simp [h1])] at h
    by_cases h2 : isFile name = true
    · rw [if_neg (by simp [h2])] at h
      exact loop fuel 0 (Except.ok.inj h)
    · rw [if_pos (by simp [h2])] at h; cases h
  · rw [if_pos (by simp [h1])] at h
    cases h; exact h1

/-- **C38, free and requested paths.**  A free name, or any name with `modify` or `overwrite`, is used as it is; a directory in the way raises. -/
theorem C38_given_path (existing : List Name) (isFile : Name → Bool) (name : Name) (fuel : ℕ) (modify overwrite : Bool) :
    (modify = true ∨ overwrite = true ∨ name ∉ existing → choosePath existing isFile modify overwrite name fuel = .ok (some name)) ∧
    (name ∈ existing → isFile name = false → choosePath existing isFile false false name fuel = .error .typeError) := by
  constructor
  · intro h; unfold choosePath; rw [if_pos h]
  · intro h1 h2; unfold choosePath; rw [if_neg (by simp [h1]), if_pos (by simp [h2])]

/-- A directory with two earlier attempts: "hrv.h5", "hrv.0.h5" and "hrv.2.h5" exist, "hrv.1.h5" is chosen. -/
example : (match choosePath ["hrv.h5".toList, "hrv.0.h5".toList, "hrv.2.h5".toList] (fun _ => true) false false "hrv.h5".toList 4 with
    | .ok (some n) => decide (String.ofList n = "hrv.1.h5") | _ => false) = true := by decide +kernel

/-! ## C39: energy -/

theorem rawToSiArr_map (fl : ℚ → ℚ) (c : CalPair) (l : List ℤ) :
    c.rawToSiArr fl (l.map (fun x : ℤ => (x : ℚ))) = l.map (fun x : ℤ => c.rawToSi fl x) := by
  simp [CalPair.rawToSiArr, CalPair.rawToSi, Function.comp_def]

/-- The power samples of a recording: voltage times current in SI units, as converted by the float unit, multiplied exactly. -/
def powers (fl : ℚ → ℚ) (s : Session) : List ℚ :=
  List.zipWith (fun v c : ℤ => s.cal.voltage.rawToSi fl v * s.cal.current.rawToSi fl c) (s.get .voltage) (s.get .current)

theorem chunks_zip {α β γ : Type} (f : α → β → γ) (k : ℕ) (hk : 0 < k) (a : List α) (b : List β) (h : a.length = b.length) :
    List.zipWith (List.zipWith f) (chunks k a) (chunks k b) = chunks k (List.zipWith f a b) := by
  induction hn : a.length using Nat.strong_induction_on generalizing a b with
  | _ n ih =>
    by_cases ha : a = []
    · subst ha
      have hb : b = [] := List.length_eq_zero_iff.1 (by rw [← h]; rfl)
      subst hb
      rw [chunks_nil k hk]; simp [chunks_nil k hk]
    · have hpos : 0 < a.length := List.length_pos_of_ne_nil ha
      have hb : b ≠ [] := by rintro rfl; simp at h; exact ha h
      have hz : List.zipWith f a b ≠ [] := by
        intro h0
        have := congrArg List.length h0
        simp only [List.length_zipWith, List.length_nil] at this
        omega
      rw [chunks_cons k hk a ha, chunks_cons k hk b hb, chunks_cons k hk _ hz, List.zipWith_cons_cons,
        ih _ (by rw [List.length_drop]; omega) (a.drop k) (b.drop k) (by simp [h]) rfl, List.take_zipWith, List.drop_zipWith]

/-- In exact arithmetic the chunk energies are those of the power samples. -/
theorem energy_eq_chunks (fl : ℚ → ℚ) (npSum : List ℚ → ℚ) (k : ℕ) (hk : 0 < k) (s : Session)
    (hlen : (s.get .voltage).length = (s.get .current).length) :
    s.energy fl npSum k = ((chunks k (powers fl s)).map (fun p => fl (npSum (p.map fl) * s.stats.intervalS))).foldl (fun a x => fl (a + x)) 0 := by
  unfold Session.energy powers
  rw [← chunks_zip _ k hk _ _ hlen, List.map_zipWith]
  congr 1
  refine congrFun (congrFun (congrArg _ ?_) _) _
  funext vs cs
  unfold energyChunk
  dsimp only
  rw [rawToSiArr_map, rawToSiArr_map, List.zipWith_map, List.map_zipWith]

/-- **C39, exact arithmetic.**  The energy is the sum of voltage * current * interval over all samples, for every chunk size. -/
theorem C39_energy_exact (k : ℕ) (hk : 0 < k) (s : Session) (hlen : (s.get .voltage).length = (s.get .current).length) :
    s.energy exact List.sum k = ((powers exact s).map (fun p => p * s.stats.intervalS)).sum := by
  rw [energy_eq_chunks exact List.sum k hk s hlen]
  have hfold : ∀ (l : List ℚ) (a : ℚ), l.foldl (fun a x => exact (a + x)) a = a + l.sum := by
    intro l
    induction l with
    | nil => intro a; simp
    | cons x l ih => intro a; rw [List.foldl_cons, ih, List.sum_cons, ← add_assoc]
  rw [hfold, zero_add]
  generalize powers exact s = p
  have : ∀ c : List ℚ, exact ((c.map exact).sum * s.stats.intervalS) = (c.map (fun p => p * s.stats.intervalS)).sum := by
    intro c
    rw [List.sum_map_mul_right]
  rw [List.map_congr_left (fun c _ => this c)]
  have h2 : (fun c : List ℚ => (c.map (fun p => p * s.stats.intervalS)).sum) = List.sum ∘ List.map (fun p => p * s.stats.intervalS) := rfl
  rw [h2, ← List.map_map, ← List.sum_flatten, map_chunks, chunks_flatten k hk]

/-- Error of summing terms in floats: every addition adds at most half an ulp of the running sum. -/
theorem fold_error {fl : ℚ → ℚ} (hf : AccRounding fl) {α : Type} (xh x a : α → ℚ) (δ τ A : ℚ) (hδ : 0 ≤ δ) (hτ : 0 ≤ τ)
    (l : List α) (hx : ∀ i ∈ l, |xh i - x i| ≤ δ * a i + τ) (ha : ∀ i ∈ l, |x i| ≤ a i)
    (acc s0 e0 A0 : ℚ) (he : |acc - s0| ≤ e0) (hs : |s0| ≤ A0) (hA : A0 + (l.map a).sum ≤ A) (hA0 : 0 ≤ A) :
    |(l.map xh).foldl (fun s y => fl (s + y)) acc - (s0 + (l.map x).sum)| ≤
      (1 + 1/2^53)^l.length * (e0 + δ * (l.map a).sum + l.length * (τ + A/2^53 + 2^(-1075:ℤ))) := by
  induction l generalizing acc s0 e0 A0 with
  | nil => simpa using he
  | cons i l ih =>
    have hai : 0 ≤ a i := (abs_nonneg _).trans (ha i (by simp))
    have hrest : 0 ≤ (l.map a).sum := List.sum_nonneg (by
      intro y hy
      obtain ⟨j, hj, rfl⟩ := List.mem_map.1 hy
      exact (abs_nonneg _).trans (ha j (by simp [hj])))
    have he0 : 0 ≤ e0 := (abs_nonneg _).trans he
    have hη : (0:ℚ) < 2^(-1075:ℤ) := by positivity
    simp only [List.map_cons, List.foldl_cons, List.sum_cons, List.length_cons] at hA ⊢
    have h1 : |acc + xh i - (s0 + x i)| ≤ e0 + (δ * a i + τ) := by
      have : acc + xh i - (s0 + x i) = (acc - s0) + (xh i - x i) := by ring
      rw [this]
      exact (abs_add_le _ _).trans (add_le_add he (hx i (by simp)))
    have h2 : |s0 + x i| ≤ A0 + a i := (abs_add_le _ _).trans (add_le_add hs (ha i (by simp)))
    have h3 : |acc + xh i| ≤ A + (e0 + (δ * a i + τ)) := by
      have : acc + xh i = (acc + xh i - (s0 + x i)) + (s0 + x i) := by ring
      rw [this]
      refine (abs_add_le _ _).trans ?_
      linarith
    have h4 : |fl (acc + xh i) - (s0 + x i)| ≤ (1 + 1/2^53) * (e0 + (δ * a i + τ)) + (A/2^53 + 2^(-1075:ℤ)) := by
      have : fl (acc + xh i) - (s0 + x i) = (fl (acc + xh i) - (acc + xh i)) + (acc + xh i - (s0 + x i)) := by ring
      rw [this]
      refine (abs_add_le _ _).trans ((add_le_add (hf.err _) h1).trans ?_)
      have : |acc + xh i| / 2^53 ≤ (A + (e0 + (δ * a i + τ))) / 2^53 := by gcongr
      linarith
    have h5 := ih (fun j hj => hx j (by simp [hj])) (fun j hj => ha j (by simp [hj])) (fl (acc + xh i)) (s0 + x i) _ (A0 + a i) h4 h2 (by linarith)
    rw [← add_assoc]
    refine h5.trans ?_
    rw [pow_succ (1 + 1/2^53 : ℚ) l.length, mul_assoc]
    refine mul_le_mul_of_nonneg_left ?_ (by positivity)
    push_cast
    have hT : 0 ≤ τ + A/2^53 + 2^(-1075:ℤ) := by positivity
    have hB : 0 ≤ δ * (l.map a).sum + (l.length : ℚ) * (τ + A/2^53 + 2^(-1075:ℤ)) := by positivity
    have hA' : 0 ≤ A/2^53 + 2^(-1075:ℤ) := by positivity
    nlinarith [hB, hA']

theorem abs_sum_le (c : List ℚ) : |c.sum| ≤ (c.map abs).sum := by
  induction c with
  | nil => simp
  | cons y c ih =>
    simp only [List.map_cons, List.sum_cons]
    exact (abs_add_le _ _).trans (add_le_add le_rfl ih)

/-- **C39, floats.**  With float arithmetic the energy is off from the exact sum of power * interval by at most the accumulated rounding: `u = 2^-53`
for every float operation and `ε` for numpy's summation within a chunk (plus underflow). -/
theorem C39_energy_float (fl : ℚ → ℚ) (hf : AccRounding fl) (npSum : List ℚ → ℚ) (ε : ℚ) (hε : 0 ≤ ε) (k : ℕ) (hk : 0 < k)
    (hsum : ∀ l : List ℚ, l.length ≤ k → |npSum l - l.sum| ≤ ε * (l.map abs).sum)
    (s : Session) (hlen : (s.get .voltage).length = (s.get .current).length) (hdt : 0 ≤ s.stats.intervalS) :
    |s.energy fl npSum k - ((powers fl s).map (fun p => p * s.stats.intervalS)).sum| ≤
      (1 + 1/2^53)^(chunks k (powers fl s)).length *
        (((1 + 1/2^53)^2 * (1 + ε) - 1 + (chunks k (powers fl s)).length / 2^53) * (((powers fl s).map abs).sum * s.stats.intervalS) +
          (chunks k (powers fl s)).length * ((1 + 1/2^53) * (1 + ε) * k * s.stats.intervalS + 2) * 2^(-1075:ℤ)) := by
  rw [energy_eq_chunks fl npSum k hk s hlen]
  generalize hp : powers fl s = p
  set dt := s.stats.intervalS with hdt'
  set u : ℚ := 1/2^53 with hu
  set η : ℚ := 2^(-1075:ℤ) with hη
  have hu0 : 0 < u := by positivity
  have hη0 : 0 < η := by positivity
  -- one chunk
  have hchunk : ∀ c ∈ chunks k p, |fl (npSum (c.map fl) * dt) - (c.map (fun p => p * dt)).sum| ≤
      ((1 + u)^2 * (1 + ε) - 1) * ((c.map abs).sum * dt) + ((1 + u) * (1 + ε) * k * dt + 1) * η := by
    intro c hc
    obtain ⟨-, hck⟩ := mem_chunks_ne k hk p c hc
    have hP : 0 ≤ (c.map abs).sum := List.sum_nonneg (by
      intro y hy; obtain ⟨j, -, rfl⟩ := List.mem_map.1 hy; exact abs_nonneg _)
    have hq : ∀ c : List ℚ, |(c.map fl).sum - c.sum| ≤ u * (c.map abs).sum + c.length * η ∧
        ((c.map fl).map abs).sum ≤ (1 + u) * (c.map abs).sum + c.length * η := by
      intro c
      induction c with
      | nil => simp
      | cons y c ih =>
        simp only [List.map_cons, List.sum_cons, List.length_cons]
        push_cast
        have e1 : |fl y - y| ≤ u * |y| + η := by
          have := hf.err y
          rw [div_eq_mul_inv, mul_comm, ← one_div] at this; exact this
        constructor
        · have : fl y + (c.map fl).sum - (y + c.sum) = (fl y - y) + ((c.map fl).sum - c.sum) := by ring
          rw [this]
          refine (abs_add_le _ _).trans ((add_le_add e1 ih.1).trans (le_of_eq ?_))
          ring
        · have e2 : |fl y| ≤ |fl y - y| + |y| := by
            have : fl y = (fl y - y) + y := by ring
            calc |fl y| = |(fl y - y) + y| := by rw [← this]
              _ ≤ _ := abs_add_le _ _
          linarith [ih.2]
    obtain ⟨hq1, hq2⟩ := hq c
    have hs1 := hsum (c.map fl) (by simpa using hck)
    have hN : |npSum (c.map fl) - c.sum| ≤ (u + ε * (1 + u)) * (c.map abs).sum + (1 + ε) * k * η := by
      have : npSum (c.map fl) - c.sum = (npSum (c.map fl) - (c.map fl).sum) + ((c.map fl).sum - c.sum) := by ring
      rw [this]
      refine (abs_add_le _ _).trans ((add_le_add (hs1.trans (mul_le_mul_of_nonneg_left hq2 hε)) hq1).trans ?_)
      have hck' : (c.length : ℚ) ≤ k := by exact_mod_cast hck
      have : (1 + ε) * (c.length : ℚ) * η ≤ (1 + ε) * k * η := by gcongr
      linarith
    have hS := abs_sum_le c
    have hsumdt : (c.map (fun p => p * dt)).sum = c.sum * dt := by rw [List.sum_map_mul_right]; simp
    rw [hsumdt]
    have hNd : |npSum (c.map fl) * dt - c.sum * dt| ≤ ((u + ε * (1 + u)) * (c.map abs).sum + (1 + ε) * k * η) * dt := by
      rw [← sub_mul, abs_mul, abs_of_nonneg hdt]
      gcongr
    have hNa : |npSum (c.map fl) * dt| ≤ ((u + ε * (1 + u)) * (c.map abs).sum + (1 + ε) * k * η) * dt + (c.map abs).sum * dt := by
      have : npSum (c.map fl) * dt = (npSum (c.map fl) * dt - c.sum * dt) + c.sum * dt := by ring
      rw [this]
      refine (abs_add_le _ _).trans (add_le_add hNd ?_)
      rw [abs_mul, abs_of_nonneg hdt]
      gcongr
    have hr := hf.err (npSum (c.map fl) * dt)
    have : fl (npSum (c.map fl) * dt) - c.sum * dt = (fl (npSum (c.map fl) * dt) - npSum (c.map fl) * dt) + (npSum (c.map fl) * dt - c.sum * dt) := by ring
    rw [this]
    refine (abs_add_le _ _).trans ((add_le_add hr hNd).trans ?_)
    have hd : |npSum (c.map fl) * dt| / 2^53 ≤ u * (((u + ε * (1 + u)) * (c.map abs).sum + (1 + ε) * k * η) * dt + (c.map abs).sum * dt) := by
      rw [div_eq_mul_inv, mul_comm, ← one_div]
      exact mul_le_mul_of_nonneg_left hNa hu0.le
    refine (add_le_add (add_le_add hd le_rfl) le_rfl).trans (le_of_eq ?_)
    ring
  have habs : ∀ c ∈ chunks k p, |(c.map (fun p => p * dt)).sum| ≤ (c.map abs).sum * dt := by
    intro c _
    have hsumdt : (c.map (fun p => p * dt)).sum = c.sum * dt := by rw [List.sum_map_mul_right]; simp
    rw [hsumdt, abs_mul, abs_of_nonneg hdt]
    exact mul_le_mul_of_nonneg_right (abs_sum_le c) hdt
  have hsums : ((chunks k p).map (fun c => (c.map (fun p => p * dt)).sum)).sum = (p.map (fun p => p * dt)).sum := by
    have h2 : (fun c : List ℚ => (c.map (fun p => p * dt)).sum) = List.sum ∘ List.map (fun p => p * dt) := rfl
    rw [h2, ← List.map_map, ← List.sum_flatten, map_chunks, chunks_flatten k hk]
  have hsuma : ((chunks k p).map (fun c => (c.map abs).sum * dt)).sum = (p.map abs).sum * dt := by
    rw [List.sum_map_mul_right]
    have h2 : (fun c : List ℚ => (c.map abs).sum) = List.sum ∘ List.map abs := rfl
    rw [h2, ← List.map_map, ← List.sum_flatten, map_chunks, chunks_flatten k hk]
  have hP : 0 ≤ (p.map abs).sum * dt := mul_nonneg (List.sum_nonneg (by
      intro y hy; obtain ⟨j, -, rfl⟩ := List.mem_map.1 hy; exact abs_nonneg _)) hdt
  have hδ : 0 ≤ (1 + u)^2 * (1 + ε) - 1 := by nlinarith
  have := fold_error hf (fun c => fl (npSum (c.map fl) * dt)) (fun c : List ℚ => (c.map (fun p => p * dt)).sum) (fun c => (c.map abs).sum * dt)
    ((1 + u)^2 * (1 + ε) - 1) (((1 + u) * (1 + ε) * k * dt + 1) * η) ((p.map abs).sum * dt) hδ (by positivity) (chunks k p) hchunk habs 0 0 0 0
    (by simp) (by simp) (by rw [hsuma]; linarith) hP
  rw [hsums, hsuma, zero_add] at this
  refine this.trans (le_of_eq ?_)
  rw [← hu, ← hη, hu]
  ring

/-- The interval a reader computes for a recording with timestamps 10 µs apart, in exact arithmetic: duration / count. -/
theorem regular_interval (s s' : Session) (t0 : ℤ) (m : ℕ) (hm : 2 ≤ m) (ht : s.get .time = regular t0 m)
    (ho : openSession exact s.file = .ok s') (hcal : s'.cal.time = (CalSeries.default exact).time) :
    s'.stats.intervalS = (m - 1) / (m * 10^5) ∧ ∀ n, s'.get n = s.get n := by
  obtain ⟨hfile, -, -, hst⟩ := openSession_ok ho
  have hget : ∀ n, s'.get n = s.get n := by
    intro n
    have := congrArg (fun f => contents f n) hfile
    simpa [contents_file] using this
  refine ⟨?_, hget⟩
  rw [hget, ht] at hst
  unfold refreshStats at hst
  dsimp only at hst
  have hm0 : (0:ℚ) < m := by have : 0 < m := by omega
                             exact_mod_cast this
  have hm1 : (2:ℚ) ≤ m := by exact_mod_cast hm
  have hdur : (regular t0 m).getD (m - 1) 0 - (regular t0 m).getD 0 0 = 10000 * ((m : ℤ) - 1) := by
    rw [regular_getD _ _ _ (by omega), regular_getD _ _ _ (by omega)]
    push_cast [Nat.cast_sub (show 1 ≤ m by omega)]; ring
  rw [length_regular, if_pos (show m > 0 by omega), hdur, if_pos ⟨by omega, by omega⟩, hcal] at hst
  have hsi : (CalSeries.default exact).time.rawToSi exact ((10000 * ((m : ℤ) - 1) : ℤ) : ℚ) = (m - 1) / 10^5 := by
    simp only [CalPair.rawToSi, CalSeries.default, exact]
    push_cast
    norm_num
    ring
  rw [hsi, if_neg (by have : (0:ℚ) < (m - 1)/10^5 := by apply div_pos <;> [linarith; norm_num]
                      exact this.ne')] at hst
  have := congrArg Stats.intervalS (Except.ok.inj hst)
  rw [← this]
  simp only [exact]
  rw [div_div, mul_comm]

/-- **C39 violated: the interval.**  For a re-opened recording of m samples, 10 µs apart, the reported energy is (m-1)/m of the sum of voltage * current * 10 µs:
too small for every recording with energy, however accurate the arithmetic. -/
theorem C39_interval_violated (s s' : Session) (t0 : ℤ) (m k : ℕ) (hm : 2 ≤ m) (hk : 0 < k) (h0 : EqualLengths s)
    (ht : s.get .time = regular t0 m) (ho : openSession exact s.file = .ok s') (hcal : s'.cal.time = (CalSeries.default exact).time) :
    s'.energy exact List.sum k = (m - 1) / m * ((powers exact s').map (fun p => p * (1 / 10^5))).sum := by
  obtain ⟨hi, hget⟩ := regular_interval s s' t0 m hm ht ho hcal
  rw [C39_energy_exact k hk s' (by rw [hget, hget, h0 .current]), hi, List.sum_map_mul_right, List.sum_map_mul_right]
  have hm0 : (m:ℚ) ≠ 0 := by have : m ≠ 0 := by omega
                             exact_mod_cast this
  field_simp

/-! ## C40: statistics -/

/-- The values of a dataset in SI units: converted by the stored gain and offset if both are there, unscaled otherwise. -/
def siValues (fl : ℚ → ℚ) (d : Dset) : List ℚ :=
  match d.attrs "gain", d.attrs "offset" with
  | some (.num g), some (.num o) => d.data.map (fun x : ℤ => fl (fl (fl x * g) + o))
  | _, _ => d.data.map (fun x : ℤ => fl (fl (fl x * 1) + 0))

/-- Gain and offset are numbers, or one of them is missing. -/
def PlainAttrs (d : Dset) : Prop := ((d.attrs "gain") = none ∨ ∃ q, d.attrs "gain" = some (.num q)) ∧
  ((d.attrs "offset") = none ∨ ∃ q, d.attrs "offset" = some (.num q))

/-- Mean of a list. -/
def meanOf (l : List ℚ) : ℚ := l.sum / l.length

theorem dsetStatistics_eq (fl : ℚ → ℚ) (np : NpStats) (k : ℕ) (hk : 0 < k) (d : Dset) (ha : PlainAttrs d) (hne : d.data ≠ []) :
    dsetStatistics fl np k d = some {
      mean := np.mean ((chunks k (siValues fl d)).map np.mean)
      min := npMin ((chunks k (siValues fl d)).map npMin)
      max := npMax ((chunks k (siValues fl d)).map npMax)
      std := np.mean ((chunks k (siValues fl d)).map np.std)
      siConverted := (d.attrs "gain").isSome && (d.attrs "offset").isSome } := by
  unfold dsetStatistics
  dsimp only
  have key : ∀ (p : CalPair), (chunks k d.data).map (fun c => p.rawToSiArr fl (c.map (fun x : ℤ => (x : ℚ)))) =
      chunks k (d.data.map (fun x : ℤ => p.rawToSi fl x)) := by
    intro p
    rw [← map_chunks]
    exact List.map_congr_left (fun c _ => rawToSiArr_map fl p c)
  have hval : ∀ p, p = (if ((d.attrs "gain").isSome && (d.attrs "offset").isSome) = true then pairOf d.attrs ⟨1, 0⟩ else ⟨1, 0⟩) →
      d.data.map (fun x : ℤ => p.rawToSi fl x) = siValues fl d := by
    rintro p rfl
    obtain ⟨h1 | ⟨g, h1⟩, h2 | ⟨o, h2⟩⟩ := ha <;> simp [siValues, h1, h2, CalPair.rawToSi, pairOf]
  rw [key, hval _ rfl, if_neg]
  rw [chunks_cons k hk _ (by
    intro h
    have := congrArg List.length h
    unfold siValues at this
    split at this <;> simp [hne] at this)]
  simp

theorem siValues_ne (fl : ℚ → ℚ) (d : Dset) (hne : d.data ≠ []) : siValues fl d ≠ [] := by
  unfold siValues; split <;> simpa using hne

theorem siValues_length (fl : ℚ → ℚ) (d : Dset) : (siValues fl d).length = d.data.length := by
  unfold siValues; split <;> simp

/-- **C40, minimum and maximum.**  For every dataset, chunk size and rounding, the reported minimum and maximum are those of the whole dataset, in SI
units exactly if it carries gain and offset. -/
theorem C40_min_max (fl : ℚ → ℚ) (np : NpStats) (k : ℕ) (hk : 0 < k) (d : Dset) (ha : PlainAttrs d) (hne : d.data ≠ []) :
    ∃ st, dsetStatistics fl np k d = some st ∧ (st.min ∈ siValues fl d ∧ ∀ x ∈ siValues fl d, st.min ≤ x) ∧
      (st.max ∈ siValues fl d ∧ ∀ x ∈ siValues fl d, x ≤ st.max) ∧
      (st.siConverted = true ↔ (d.attrs "gain").isSome ∧ (d.attrs "offset").isSome) := by
  refine ⟨_, dsetStatistics_eq fl np k hk d ha hne, ?_, ?_, by simp⟩
  all_goals
    have hv := siValues_ne fl d hne
    generalize siValues fl d = v at hv
    have hfl := chunks_flatten k hk v
    have hc : chunks k v ≠ [] := by rw [chunks_cons k hk v hv]; simp
    have hmem : ∀ x, x ∈ v ↔ ∃ c ∈ chunks k v, x ∈ c := by
      intro x; rw [show x ∈ v ↔ x ∈ (chunks k v).flatten by rw [hfl]]; simp
    have hn := mem_chunks_ne k hk v
  · obtain ⟨h1, h2⟩ := npMin_spec ((chunks k v).map npMin) (by simpa using hc)
    obtain ⟨c, hc1, hc2⟩ := List.mem_map.1 h1
    dsimp only
    constructor
    · rw [← hc2]; exact (hmem _).2 ⟨c, hc1, (npMin_spec c (hn c hc1).1).1⟩
    · intro x hx
      obtain ⟨c', h3, h4⟩ := (hmem x).1 hx
      exact (h2 _ (List.mem_map.2 ⟨c', h3, rfl⟩)).trans ((npMin_spec c' (hn c' h3).1).2 x h4)
  · obtain ⟨h1, h2⟩ := npMax_spec ((chunks k v).map npMax) (by simpa using hc)
    obtain ⟨c, hc1, hc2⟩ := List.mem_map.1 h1
    dsimp only
    constructor
    · rw [← hc2]; exact (hmem _).2 ⟨c, hc1, (npMax_spec c (hn c hc1).1).1⟩
    · intro x hx
      obtain ⟨c', h3, h4⟩ := (hmem x).1 hx
      exact ((npMax_spec c' (hn c' h3).1).2 x h4).trans (h2 _ (List.mem_map.2 ⟨c', h3, rfl⟩))

/-- **C40, empty datasets** have no statistics. -/
theorem C40_empty (fl : ℚ → ℚ) (np : NpStats) (k : ℕ) (hk : 0 < k) (d : Dset) (h : d.data = []) : dsetStatistics fl np k d = none := by
  unfold dsetStatistics
  dsimp only
  rw [h, chunks_nil k hk]
  simp

/-- **C40, mean and deviation (partial: one chunk).**  For datasets that fit into one chunk (4,000,000 samples) mean and deviation are those numpy
computes of the whole dataset. -/
theorem C40_one_chunk_partial (fl : ℚ → ℚ) (np : NpStats) (k : ℕ) (hk : 0 < k) (d : Dset) (ha : PlainAttrs d) (hne : d.data ≠ []) (hl : d.data.length ≤ k)
    (h1 : ∀ x, np.mean [x] = x) :
    ∃ st, dsetStatistics fl np k d = some st ∧ st.mean = np.mean (siValues fl d) ∧ st.std = np.std (siValues fl d) := by
  refine ⟨_, dsetStatistics_eq fl np k hk d ha hne, ?_, ?_⟩ <;>
    rw [chunks_small k hk _ (siValues_ne fl d hne) (by rw [siValues_length]; exact hl)] <;> exact h1 _

/-- **C40, mean (partial: equal chunks, exact arithmetic).**  If the length is a multiple of the chunk size the reported mean is the mean of the dataset. -/
theorem C40_mean_partial (fl : ℚ → ℚ) (std : List ℚ → ℚ) (k : ℕ) (hk : 0 < k) (d : Dset) (ha : PlainAttrs d) (hne : d.data ≠ []) (hl : k ∣ d.data.length) :
    ∃ st, dsetStatistics fl ⟨meanOf, std⟩ k d = some st ∧ st.mean = meanOf (siValues fl d) := by
  refine ⟨_, dsetStatistics_eq fl _ k hk d ha hne, ?_⟩
  dsimp only
  rw [← siValues_length fl d] at hl
  have hv := siValues_ne fl d hne
  generalize siValues fl d = v at hv hl
  have key : ∀ v : List ℚ, k ∣ v.length → ((chunks k v).map meanOf).sum * k = v.sum ∧ (chunks k v).length * k = v.length := by
    intro v
    refine chunks_induction (P := fun v => k ∣ v.length → ((chunks k v).map meanOf).sum * k = v.sum ∧ (chunks k v).length * k = v.length) k hk ?_ ?_ v
    · intro _; rw [chunks_nil k hk]; simp
    · intro v hv ih hd
      have hle : k ≤ v.length := Nat.le_of_dvd (List.length_pos_of_ne_nil hv) hd
      obtain ⟨h1, h2⟩ := ih (by rw [List.length_drop]; exact Nat.dvd_sub hd dvd_rfl)
      rw [chunks_cons k hk v hv, List.map_cons, List.sum_cons, List.length_cons, add_mul, add_mul, h1, h2, List.length_drop]
      have hk0 : (k:ℚ) ≠ 0 := by exact_mod_cast hk.ne'
      refine ⟨?_, by omega⟩
      unfold meanOf
      rw [List.length_take, min_eq_left hle, div_mul_cancel₀ _ hk0, ← List.sum_append, List.take_append_drop]
  obtain ⟨h1, h2⟩ := key v hl
  have hk0 : (k:ℚ) ≠ 0 := by exact_mod_cast hk.ne'
  have hv0 : (v.length : ℚ) ≠ 0 := by exact_mod_cast (List.length_pos_of_ne_nil hv).ne'
  unfold meanOf at h1 ⊢
  rw [List.length_map, ← h1, ← h2]
  push_cast
  rw [mul_div_mul_right _ _ hk0]

/-- A dataset without calibration. -/
def plain (l : List ℤ) : Dset := ⟨l, fun _ => none⟩

theorem siValues_plain (l : List ℤ) : siValues exact (plain l) = l.map (fun x : ℤ => (x : ℚ)) := by
  simp [siValues, plain]

/-- **C40 violated: mean.**  For every chunk size above 1 there is a dataset (k zeros and a one) whose reported mean is not its mean: chunks are not
weighted by their length. -/
theorem C40_mean_violated (std : List ℚ → ℚ) (k : ℕ) (hk : 2 ≤ k) :
    ∃ d st, PlainAttrs d ∧ dsetStatistics exact ⟨meanOf, std⟩ k d = some st ∧ st.mean = 1/2 ∧ meanOf (siValues exact d) = 1 / (k + 1) ∧
      st.mean ≠ meanOf (siValues exact d) := by
  have hpa : PlainAttrs (plain (List.replicate k 0 ++ [1])) := ⟨Or.inl rfl, Or.inl rfl⟩
  have hv : siValues exact (plain (List.replicate k 0 ++ [1])) = List.replicate k 0 ++ [1] := by
    rw [siValues_plain]; simp
  have hm : meanOf (siValues exact (plain (List.replicate k 0 ++ [1]))) = 1 / (k + 1) := by
    rw [hv]; simp [meanOf]
  have hr : meanOf ((chunks k (siValues exact (plain (List.replicate k 0 ++ [1])))).map meanOf) = 1/2 := by
    rw [hv, chunks_append k (by omega) _ _ (by simp), chunks_small k (by omega) (List.replicate k (0:ℚ)) (by simp; omega) (by simp),
      chunks_small k (by omega) [(1:ℚ)] (by simp) (by simp; omega)]
    simp [meanOf]
  refine ⟨_, _, hpa, dsetStatistics_eq exact _ k (by omega) _ hpa (by simp [plain]), hr, hm, ?_⟩
  dsimp only
  rw [hr, hm]
  have hk' : (2:ℚ) ≤ k := by exact_mod_cast hk
  intro h
  rw [div_eq_div_iff (by norm_num) (by positivity)] at h
  linarith

/-- **C40 violated: deviation.**  For every chunk size there is a dataset (k zeros, k ones, variance 1/4) reported with deviation 0, for every
implementation of the deviation that gives 0 on constant data. -/
theorem C40_std_violated (std : List ℚ → ℚ) (k : ℕ) (hk : 0 < k) (hstd : ∀ c, std (List.replicate k c) = 0) :
    ∃ d st, PlainAttrs d ∧ dsetStatistics exact ⟨meanOf, std⟩ k d = some st ∧ st.std = 0 ∧
      meanOf ((siValues exact d).map (fun x => (x - meanOf (siValues exact d))^2)) = 1/4 := by
  have hpa : PlainAttrs (plain (List.replicate k 0 ++ List.replicate k 1)) := ⟨Or.inl rfl, Or.inl rfl⟩
  have hv : siValues exact (plain (List.replicate k 0 ++ List.replicate k 1)) = List.replicate k 0 ++ List.replicate k 1 := by
    rw [siValues_plain]; simp
  have hk0 : (k:ℚ) ≠ 0 := by exact_mod_cast hk.ne'
  refine ⟨_, _, hpa, dsetStatistics_eq exact _ k hk _ hpa (by simp [plain]; omega), ?_, ?_⟩
  · dsimp only
    rw [hv, chunks_append k hk _ _ (by simp), chunks_small k hk (List.replicate k (0:ℚ)) (by simp; omega) (by simp),
      chunks_small k hk (List.replicate k (1:ℚ)) (by simp; omega) (by simp)]
    simp [hstd, meanOf]
  · rw [hv]
    have hm : meanOf (List.replicate k (0:ℚ) ++ List.replicate k 1) = 1/2 := by
      simp [meanOf]; field_simp; norm_num
    rw [hm]
    simp [meanOf]
    field_simp
    norm_num

/-! ## C41: time jumps -/

theorem strided_getElem? (n : ℕ) (hn : 0 < n) (l : List ℤ) (i : ℕ) : (strided n l)[i]? = l[n * i]? := by
  induction i generalizing l with
  | zero =>
    cases l with
    | nil => simp [strided, chunks_nil n hn]
    | cons a l =>
      unfold strided
      rw [chunks_cons n hn _ (by simp), List.filterMap_cons]
      obtain ⟨m, rfl⟩ : ∃ m, n = m + 1 := ⟨n - 1, by omega⟩
      simp
  | succ i ih =>
    by_cases hl : l = []
    · subst hl; simp [strided, chunks_nil n hn]
    · have : strided n l = l.head hl :: strided n (l.drop n) := by
        unfold strided
        rw [chunks_cons n hn l hl, List.filterMap_cons]
        cases l with
        | nil => exact absurd rfl hl
        | cons a l =>
          obtain ⟨m, rfl⟩ : ∃ m, n = m + 1 := ⟨n - 1, by omega⟩
          simp
      rw [this, List.getElem?_cons_succ, ih, List.getElem?_drop]
      congr 1
      ring

theorem mem_diffs (w : ℕ) (l : List ℤ) (d : ℤ) :
    d ∈ diffs w l ↔ ∃ i a b, l[i]? = some a ∧ l[i + 1]? = some b ∧ d = (b - a) % 2^w := by
  unfold diffs
  rw [List.mem_iff_getElem?]
  constructor
  · rintro ⟨i, h⟩
    rw [List.getElem?_zipWith] at h
    cases ha : l[i]? with
    | none => rw [ha] at h; simp at h
    | some a =>
      cases hb : l.tail[i]? with
      | none => rw [ha, hb] at h; simp at h
      | some b =>
        rw [ha, hb] at h
        refine ⟨i, a, b, ha, ?_, ?_⟩
        · rw [← hb, List.getElem?_tail]
        · simpa using h.symm
  · rintro ⟨i, a, b, ha, hb, rfl⟩
    refine ⟨i, ?_⟩
    rw [List.getElem?_zipWith, ha, List.getElem?_tail, hb]

/-- The deltas of buffer starts the check looks at: buffers i and i+1 exist, and i+1 is not the first buffer of a chunk. -/
theorem mem_checked (b : ℕ) (hb : 0 < b) (l : List ℤ) (d : ℤ) :
    d ∈ (chunks (10000 * b) l).flatMap (fun c => diffs 64 (strided 10000 c)) ↔
      ∃ i s t, l[10000 * i]? = some s ∧ l[10000 * (i + 1)]? = some t ∧ ¬ b ∣ (i + 1) ∧ d = (t - s) % 2^64 := by
  rw [List.mem_flatMap]
  have hchunk : ∀ j i, ((l.drop (j * (10000 * b))).take (10000 * b))[10000 * i]? = if i < b then l[10000 * (j * b + i)]? else none := by
    intro j i
    by_cases h : i < b
    · rw [if_pos h, List.getElem?_take_of_lt (by omega), List.getElem?_drop]
      congr 1; ring
    · rw [if_neg h, List.getElem?_eq_none]
      rw [List.length_take]
      have : 10000 * b ≤ 10000 * i := by omega
      omega
  constructor
  · rintro ⟨c, hc, hd⟩
    obtain ⟨j, hj, rfl⟩ := List.mem_map.1 hc
    obtain ⟨i, s, t, h1, h2, rfl⟩ := (mem_diffs 64 _ _).1 hd
    rw [strided_getElem? _ (by norm_num), hchunk] at h1 h2
    by_cases hi : i + 1 < b
    · rw [if_pos (by omega)] at h1
      rw [if_pos hi] at h2
      refine ⟨j * b + i, s, t, h1, by rw [add_assoc]; exact h2, ?_, rfl⟩
      intro hdvd
      rw [add_assoc, Nat.dvd_add_right (Dvd.intro_left j rfl)] at hdvd
      exact absurd (Nat.le_of_dvd (by omega) hdvd) (by omega)
    · rw [if_neg hi] at h2; cases h2
  · rintro ⟨i, s, t, h1, h2, h3, rfl⟩
    have hmod : i % b + 1 < b := by
      have h4 := Nat.mod_lt i hb
      rcases Nat.lt_or_ge (i % b + 1) b with h | h
      · exact h
      · exfalso; apply h3
        have h5 := Nat.div_add_mod i b
        have h6 : i + 1 = b * (i / b) + b := by omega
        rw [h6]
        exact Dvd.intro (i / b + 1) (by ring)
    have hdm : i / b * b + i % b = i := by rw [Nat.mul_comm]; exact Nat.div_add_mod i b
    refine ⟨(l.drop (i / b * (10000 * b))).take (10000 * b), ?_, ?_⟩
    · unfold chunks
      refine List.mem_map.2 ⟨i / b, List.mem_range.2 ?_, rfl⟩
      obtain ⟨hlt, -⟩ := List.getElem?_eq_some_iff.1 h1
      rw [Nat.lt_div_iff_mul_lt (by omega)]
      have : i / b * (10000 * b) ≤ 10000 * i := by
        calc i / b * (10000 * b) = 10000 * (i / b * b) := by ring
          _ ≤ 10000 * i := by gcongr; exact Nat.div_mul_le_self i b
      omega
    · refine (mem_diffs 64 _ _).2 ⟨i % b, s, t, ?_, ?_, rfl⟩
      · rw [strided_getElem? _ (by norm_num), hchunk, if_pos (by omega), hdm, h1]
      · rw [strided_getElem? _ (by norm_num), hchunk, if_pos hmod, ← add_assoc, hdm, h2]

/-- The reported delta per sample for a distance `d` of buffer starts. -/
def deltaOf (fl : ℚ → ℚ) (cal : CalSeries) (d : ℤ) : ℚ := round6 fl (fl (cal.time.rawToSi fl d / 10000))
/-- The expected delta per sample. -/
def deltaRef (fl : ℚ → ℚ) : ℚ := round6 fl (fl (fl (1/10) / 10000))

theorem round6_mono {fl : ℚ → ℚ} (hf : Rounding fl) {x y : ℚ} (h : x ≤ y) : round6 fl x ≤ round6 fl y := by
  unfold round6
  apply hf.mono
  have h1 := pyRound_mono (mul_le_mul_of_nonneg_left h (by norm_num : (0:ℚ) ≤ 10^6))
  have h2 : (pyRound (10^6 * x) : ℚ) ≤ pyRound (10^6 * y) := Int.cast_le.2 h1
  exact div_le_div_of_nonneg_right h2 (by norm_num)

theorem deltaOf_mono {fl : ℚ → ℚ} (hf : AccRounding fl) (cal : CalSeries) (hc : cal.time = (CalSeries.default fl).time) {d e : ℤ} (h : d ≤ e) :
    deltaOf fl cal d ≤ deltaOf fl cal e := by
  unfold deltaOf
  apply round6_mono hf.toRounding
  apply hf.mono
  have hg : 0 ≤ cal.time.gain := by
    rw [hc]; exact hf.toRounding.nonneg (by norm_num)
  have : cal.time.rawToSi fl d ≤ cal.time.rawToSi fl e := by
    simp only [CalPair.rawToSi, Bool.not_true, Bool.false_eq_true, if_false]
    apply hf.mono
    have h1 : fl (d : ℚ) ≤ fl (e : ℚ) := hf.mono (by exact_mod_cast h)
    have h2 : fl (fl (d : ℚ) * cal.time.gain) ≤ fl (fl (e : ℚ) * cal.time.gain) := hf.mono (by gcongr)
    linarith
  gcongr

theorem delta_approx {fl : ℚ → ℚ} (hf : AccRounding fl) (cal : CalSeries) (hc : cal.time = (CalSeries.default fl).time) (d : ℤ)
    (h1 : 10^6 ≤ d) (h2 : d ≤ 2^53) :
    (d : ℚ) / 10^13 * (1 - 1/2^50) ≤ fl (cal.time.rawToSi fl d / 10000) ∧ fl (cal.time.rawToSi fl d / 10000) ≤ (d : ℚ) / 10^13 * (1 + 1/2^50) := by
  have hd : (10^6 : ℚ) ≤ d := by exact_mod_cast h1
  have hd0 : (0:ℚ) < d := by linarith
  obtain ⟨g1, g2⟩ := acc_rel hf (x := 1/10^9) (by norm_num)
  have hfd : fl (d : ℚ) = d := hf.toRounding.exactInt d (by rw [abs_of_nonneg (by omega)]; exact h2)
  obtain ⟨m1, m2⟩ := acc_rel hf (x := (d : ℚ) * fl (1/10^9)) (by
    calc (1:ℚ)/10^30 ≤ 10^6 * (1/10^9 * (1 - 1/2^52)) := by norm_num
      _ ≤ d * fl (1/10^9) := by gcongr)
  have hsi : cal.time.rawToSi fl d = fl ((d : ℚ) * fl (1/10^9)) := by
    rw [hc]
    simp only [CalPair.rawToSi, CalSeries.default, hfd, add_zero, Bool.not_true, Bool.false_eq_true, if_false, hf.idem]
  rw [hsi]
  set y := fl ((d : ℚ) * fl (1/10^9)) with hy
  have y1 : (d : ℚ) * (1/10^9 * (1 - 1/2^52)) * (1 - 1/2^52) ≤ y := le_trans (by gcongr) m1
  have y2 : y ≤ (d : ℚ) * (1/10^9 * (1 + 1/2^52)) * (1 + 1/2^52) := m2.trans (by gcongr)
  obtain ⟨q1, q2⟩ := acc_rel hf (x := y / 10000) (by
    have : (10^6 : ℚ) * (1/10^9 * (1 - 1/2^52)) * (1 - 1/2^52) ≤ y := le_trans (by gcongr) y1
    rw [le_div_iff₀ (by norm_num)]
    refine le_trans ?_ this
    norm_num)
  constructor
  · refine le_trans ?_ q1
    have : (d : ℚ) * (1/10^9 * (1 - 1/2^52)) * (1 - 1/2^52) / 10000 * (1 - 1/2^52) ≤ y / 10000 * (1 - 1/2^52) := by gcongr
    refine le_trans ?_ this
    have : (d : ℚ) * (1/10^9 * (1 - 1/2^52)) * (1 - 1/2^52) / 10000 * (1 - 1/2^52) = d / 10^13 * ((1 - 1/2^52)^3) := by ring
    rw [this]
    gcongr
    norm_num
  · refine q2.trans ?_
    have : y / 10000 * (1 + 1/2^52) ≤ (d : ℚ) * (1/10^9 * (1 + 1/2^52)) * (1 + 1/2^52) / 10000 * (1 + 1/2^52) := by gcongr
    refine this.trans ?_
    have : (d : ℚ) * (1/10^9 * (1 + 1/2^52)) * (1 + 1/2^52) / 10000 * (1 + 1/2^52) = d / 10^13 * ((1 + 1/2^52)^3) := by ring
    rw [this]
    gcongr
    norm_num

theorem deltaRef_eq {fl : ℚ → ℚ} (hf : AccRounding fl) : deltaRef fl = fl (10 / 10^6) := by
  unfold deltaRef round6
  have : pyRound (10^6 * fl (fl (1/10) / 10000)) = 10 := by
    obtain ⟨g1, g2⟩ := acc_rel hf (x := 1/10) (by norm_num)
    obtain ⟨q1, q2⟩ := acc_rel hf (x := fl (1/10) / 10000) (by
      rw [le_div_iff₀ (by norm_num)]; refine le_trans ?_ g1; norm_num)
    apply pyRound_eq_of_lt
    rw [abs_lt]
    have a1 : (1/10 * (1 - 1/2^52)) / 10000 * (1 - 1/2^52) ≤ fl (1/10) / 10000 * (1 - 1/2^52) := by gcongr
    have a2 : fl (1/10) / 10000 * (1 + 1/2^52) ≤ (1/10 * (1 + 1/2^52)) / 10000 * (1 + 1/2^52) := by gcongr
    constructor
    · push_cast; norm_num at a1 q1 ⊢; linarith
    · push_cast; norm_num at a2 q2 ⊢; linarith
  rw [this]
  norm_num

/-- The tolerance of the check: 5 % of 100 ms. -/
theorem deltaOf_ref {fl : ℚ → ℚ} (hf : AccRounding fl) (cal : CalSeries) (hc : cal.time = (CalSeries.default fl).time) (d : ℤ) (hd : d ≠ 95000000 ∧ d ≠ 105000000) :
    deltaOf fl cal d = deltaRef fl ↔ 95000000 < d ∧ d < 105000000 := by
  have point : ∀ (e : ℤ) (n : ℤ), 10^6 ≤ e → e ≤ 2^53 → (n : ℚ) - 1/2 < (e : ℚ) / 10^7 * (1 - 1/2^50) → (e : ℚ) / 10^7 * (1 + 1/2^50) < n + 1/2 →
      deltaOf fl cal e = fl (n / 10^6) := by
    intro e n h1 h2 h3 h4
    obtain ⟨a1, a2⟩ := delta_approx hf cal hc e h1 h2
    unfold deltaOf round6
    rw [pyRound_eq_of_lt (n := n)]
    rw [abs_lt]
    constructor
    · have : (10^6 : ℚ) * ((e : ℚ) / 10^13 * (1 - 1/2^50)) = (e : ℚ) / 10^7 * (1 - 1/2^50) := by ring
      linarith
    · have : (10^6 : ℚ) * ((e : ℚ) / 10^13 * (1 + 1/2^50)) = (e : ℚ) / 10^7 * (1 + 1/2^50) := by ring
      linarith
  have p95 := point 95000001 10 (by norm_num) (by norm_num) (by norm_num) (by norm_num)
  have p104 := point 104999999 10 (by norm_num) (by norm_num) (by norm_num) (by norm_num)
  have p94 := point 94999999 9 (by norm_num) (by norm_num) (by norm_num) (by norm_num)
  have p105 := point 105000001 11 (by norm_num) (by norm_num) (by norm_num) (by norm_num)
  have hr := deltaRef_eq hf
  push_cast at p95 p104 p94 p105
  obtain ⟨b1, b2⟩ := acc_rel hf (x := 10 / 10^6) (by norm_num)
  obtain ⟨b3, b4⟩ := acc_rel hf (x := 9 / 10^6) (by norm_num)
  obtain ⟨b5, b6⟩ := acc_rel hf (x := 11 / 10^6) (by norm_num)
  constructor
  · intro h
    rw [hr] at h
    by_contra hcon
    rcases lt_or_ge d 95000001 with hlt | hge
    · have := deltaOf_mono hf cal hc (show d ≤ 94999999 by omega)
      rw [p94, h] at this
      norm_num at this b1 b4
      linarith
    · have := deltaOf_mono hf cal hc (show 105000001 ≤ d by omega)
      rw [p105, h] at this
      norm_num at this b2 b5
      linarith
  · rintro ⟨h1, h2⟩
    have a1 := deltaOf_mono hf cal hc (show 95000001 ≤ d by omega)
    have a2 := deltaOf_mono hf cal hc (show d ≤ 104999999 by omega)
    rw [p95] at a1
    rw [p104] at a2
    rw [hr]
    exact le_antisymm a2 a1

/-- All elements are `r`. -/
def allEq (l : List ℚ) (r : ℚ) : Bool := decide (∀ x ∈ l, x = r)

theorem dedup_check (l : List ℚ) (r : ℚ) :
    (match l.dedup with
      | [] => (.error .indexError : Except PyErr Bool)
      | [d] => .ok (decide (d = r))
      | _ => .ok false) =
    if l = [] then .error .indexError else .ok (allEq l r) := by
  unfold allEq
  have hmem : ∀ x, x ∈ l.dedup ↔ x ∈ l := fun x => List.mem_dedup
  have hnd := List.nodup_dedup l
  by_cases hl : l = []
  · subst hl; simp
  · rw [if_neg hl]
    generalize l.dedup = m at hmem hnd
    match m, hmem, hnd with
    | [], hmem, _ =>
      obtain ⟨x, hx⟩ := List.exists_mem_of_ne_nil l hl
      exact absurd ((hmem x).2 hx) (by simp)
    | [d], hmem, _ =>
      dsimp only
      congr 1
      rw [decide_eq_decide]
      constructor
      · rintro rfl x hx
        simpa using (hmem x).2 hx
      · intro h
        exact h d ((hmem d).1 (by simp))
    | d :: e :: m, hmem, hnd =>
      dsimp only
      congr 1
      symm
      rw [decide_eq_false_iff_not]
      intro h
      have h1 := h d ((hmem d).1 (by simp))
      have h2 := h e ((hmem e).1 (by simp))
      rw [List.nodup_cons] at hnd
      exact hnd.1 (by simp [h1, h2])

/-- Start times of buffers i and i+1 of a recording. -/
def BufferStarts (l : List ℤ) (i : ℕ) (s t : ℤ) : Prop := l[10000 * i]? = some s ∧ l[10000 * (i + 1)]? = some t

/-- **C41 (partial: jumps within a chunk, tolerance of 5 ms).**  Buffer starts being time stamps below 2^64, the check raises IndexError if there is no pair of buffers
within a chunk of `b` buffers, and otherwise succeeds exactly if the next buffer starts 95 ms to 105 ms after the previous one, for all pairs within chunks. -/
theorem C41_check_partial (fl : ℚ → ℚ) (hf : AccRounding fl) (b : ℕ) (hb : 0 < b) (s : Session) (hc : s.cal.time = (CalSeries.default fl).time)
    (htie : ∀ i x y, BufferStarts (s.get .time) i x y → (y - x) % 2^64 ≠ 95000000 ∧ (y - x) % 2^64 ≠ 105000000) :
    ((∃ r, s.checkTimediffs fl (10000 * b) = .ok r) ↔ ∃ i x y, BufferStarts (s.get .time) i x y ∧ ¬ b ∣ (i + 1)) ∧
    (s.checkTimediffs fl (10000 * b) = .ok true ↔ (∃ i x y, BufferStarts (s.get .time) i x y ∧ ¬ b ∣ (i + 1)) ∧
      ∀ i x y, BufferStarts (s.get .time) i x y → ¬ b ∣ (i + 1) → 95000000 < (y - x) % 2^64 ∧ (y - x) % 2^64 < 105000000) := by
  have hchk : s.checkTimediffs fl (10000 * b) = if (chunks (10000 * b) (s.get .time)).flatMap (fun c => diffs 64 (strided 10000 c)) = [] then .error .indexError
      else .ok (allEq (((chunks (10000 * b) (s.get .time)).flatMap (fun c => diffs 64 (strided 10000 c))).map (deltaOf fl s.cal)) (deltaRef fl)) := by
    unfold Session.checkTimediffs Session.timediffs
    refine (dedup_check _ _).trans ?_
    simp only [List.map_eq_nil_iff]
    rfl
  rw [hchk]
  have hm := mem_checked b hb (s.get .time)
  generalize (chunks (10000 * b) (s.get .time)).flatMap (fun c => diffs 64 (strided 10000 c)) = l at hm
  have hne : l ≠ [] ↔ ∃ i x y, BufferStarts (s.get .time) i x y ∧ ¬ b ∣ (i + 1) := by
    constructor
    · intro h
      obtain ⟨d, hd⟩ := List.exists_mem_of_ne_nil l h
      obtain ⟨i, x, y, h1, h2, h3, -⟩ := (hm d).1 hd
      exact ⟨i, x, y, ⟨h1, h2⟩, h3⟩
    · rintro ⟨i, x, y, ⟨h1, h2⟩, h3⟩ h
      have := (hm _).2 ⟨i, x, y, h1, h2, h3, rfl⟩
      rw [h] at this
      cases this
  by_cases hl : l = []
  · rw [if_pos hl]
    refine ⟨⟨fun ⟨r, h⟩ => (by cases h), fun h => absurd hl (hne.2 h)⟩, ⟨fun h => (by cases h), fun h => absurd hl (hne.2 h.1)⟩⟩
  · rw [if_neg hl]
    refine ⟨⟨fun _ => hne.1 hl, fun _ => ⟨_, rfl⟩⟩, ?_⟩
    constructor
    · intro h
      have h' := List.forall_mem_map.1 (of_decide_eq_true (Except.ok.inj h))
      refine ⟨hne.1 hl, ?_⟩
      intro i x y hxy hb'
      exact (deltaOf_ref hf s.cal hc _ (htie i x y hxy)).1 (h' _ ((hm _).2 ⟨i, x, y, hxy.1, hxy.2, hb', rfl⟩))
    · rintro ⟨-, h⟩
      congr 1
      unfold allEq
      rw [decide_eq_true_iff, List.forall_mem_map]
      intro d hd
      obtain ⟨i, x, y, h1, h2, h3, rfl⟩ := (hm d).1 hd
      exact (deltaOf_ref hf s.cal hc _ (htie i x y ⟨h1, h2⟩)).2 (h i x y ⟨h1, h2⟩ h3)

theorem regular_getElem? (t0 : ℤ) (m i : ℕ) (x : ℤ) : (regular t0 m)[i]? = some x ↔ i < m ∧ x = t0 + 10000 * (i : ℤ) := by
  unfold regular
  rw [List.getElem?_map]
  by_cases h : i < m
  · rw [List.getElem?_range h]; simp [h, eq_comm]
  · rw [List.getElem?_eq_none (by simpa using h)]; simp [h]

/-- **C41, regular recordings.**  A recording with time stamps 10 µs apart and at least two buffer starts passes. -/
theorem C41_regular (fl : ℚ → ℚ) (hf : AccRounding fl) (b : ℕ) (hb : 2 ≤ b) (s : Session) (hc : s.cal.time = (CalSeries.default fl).time)
    (t0 : ℤ) (m : ℕ) (hm : 10001 ≤ m) (ht : s.get .time = regular t0 m) : s.checkTimediffs fl (10000 * b) = .ok true := by
  have hd : ∀ i x y, BufferStarts (s.get .time) i x y → (y - x) % 2^64 = 100000000 := by
    rintro i x y ⟨h1, h2⟩
    rw [ht, regular_getElem?] at h1 h2
    rw [h1.2, h2.2]
    have : t0 + 10000 * ((10000 * (i + 1) : ℕ) : ℤ) - (t0 + 10000 * ((10000 * i : ℕ) : ℤ)) = 100000000 := by push_cast; ring
    rw [this]; norm_num
  refine (C41_check_partial fl hf b (by omega) s hc (fun i x y h => by rw [hd i x y h]; norm_num)).2.2 ⟨⟨0, t0, t0 + 100000000, ?_, ?_⟩, ?_⟩
  · constructor <;> rw [ht, regular_getElem?] <;> constructor <;> first | omega | (push_cast; ring)
  · intro h; have := Nat.le_of_dvd (by norm_num) h; omega
  · intro i x y h _; rw [hd i x y h]; norm_num

/-- Two regular pieces, the second one of the same length starting at any time. -/
theorem pieces_starts (t0 t1 : ℤ) (n i : ℕ) (x y : ℤ) (h : BufferStarts (regular t0 (10000 * n) ++ regular t1 (10000 * n)) i x y) :
    (i + 1 ≠ n ∧ y - x = 100000000) ∨ (i + 1 = n ∧ y - x = t1 - (t0 + 10000 * (10000 * (n - 1)))) := by
  obtain ⟨h1, h2⟩ := h
  rw [List.getElem?_append, length_regular] at h1 h2
  by_cases c1 : 10000 * i < 10000 * n
  · rw [if_pos c1, regular_getElem?] at h1
    by_cases c2 : 10000 * (i + 1) < 10000 * n
    · rw [if_pos c2, regular_getElem?] at h2
      left; refine ⟨by omega, ?_⟩
      rw [h1.2, h2.2]; push_cast; ring
    · rw [if_neg c2, regular_getElem?] at h2
      have : i + 1 = n := by omega
      subst this
      right; refine ⟨rfl, ?_⟩
      rw [h1.2, h2.2]; push_cast; simp
  · rw [if_neg c1, regular_getElem?] at h1
    have c2 : ¬ 10000 * (i + 1) < 10000 * n := by omega
    rw [if_neg c2, regular_getElem?] at h2
    left; refine ⟨by omega, ?_⟩
    rw [h1.2, h2.2]
    rw [Nat.cast_sub (by omega), Nat.cast_sub (by omega)]
    push_cast; ring

/-- **C41 violated: chunk borders.**  Whatever the chunk size, a jump of any size (up to the two values at the edge of the tolerance) right at the border of two chunks
goes unnoticed: the check succeeds. -/
theorem C41_border_violated (fl : ℚ → ℚ) (hf : AccRounding fl) (b : ℕ) (hb : 2 ≤ b) (s : Session) (hc : s.cal.time = (CalSeries.default fl).time)
    (t0 jump : ℤ) (hj : jump % 2^64 ≠ 95000000 ∧ jump % 2^64 ≠ 105000000)
    (ht : s.get .time = regular t0 (10000 * b) ++ regular (t0 + 10000 * (10000 * (b - 1)) + jump) (10000 * b)) :
    s.checkTimediffs fl (10000 * b) = .ok true := by
  have hd : ∀ i x y, BufferStarts (s.get .time) i x y → (i + 1 ≠ b ∧ y - x = 100000000) ∨ (i + 1 = b ∧ y - x = jump) := by
    intro i x y h
    rw [ht] at h
    rcases pieces_starts _ _ _ _ _ _ h with h | ⟨h1, h2⟩
    · exact Or.inl h
    · exact Or.inr ⟨h1, by rw [h2]; ring⟩
  refine (C41_check_partial fl hf b (by omega) s hc ?_).2.2 ⟨⟨0, t0, t0 + 100000000, ?_, ?_⟩, ?_⟩
  · intro i x y h
    rcases hd i x y h with ⟨-, h⟩ | ⟨-, h⟩ <;> rw [h]
    · norm_num
    · exact hj
  · rw [ht]
    constructor <;> rw [List.getElem?_append_left (by rw [length_regular]; omega), regular_getElem?] <;> constructor <;> first | omega | (push_cast; ring)
  · intro h; have := Nat.le_of_dvd (by norm_num) h; omega
  · intro i x y h hb'
    rcases hd i x y h with ⟨-, h⟩ | ⟨h1, h⟩
    · rw [h]; norm_num
    · exact absurd (by rw [h1]) hb'

/-- **C41 violated: small jumps.**  A buffer that starts up to 5 ms (500 samples) too late or too early goes unnoticed. -/
theorem C41_tolerance_violated (fl : ℚ → ℚ) (hf : AccRounding fl) (b : ℕ) (hb : 2 ≤ b) (s : Session) (hc : s.cal.time = (CalSeries.default fl).time)
    (t0 late : ℤ) (hl : |late| < 5000000) (ht : s.get .time = regular t0 10000 ++ regular (t0 + 100000000 + late) 10000) :
    s.checkTimediffs fl (10000 * b) = .ok true := by
  have hl' := abs_lt.1 hl
  have hd : ∀ i x y, BufferStarts (s.get .time) i x y → 95000000 < (y - x) % 2^64 ∧ (y - x) % 2^64 < 105000000 := by
    intro i x y h
    rw [ht] at h
    rcases pieces_starts t0 (t0 + 100000000 + late) 1 i x y h with ⟨-, h⟩ | ⟨h1, h2⟩
    · rw [h]; norm_num
    · rw [h2]
      have : t0 + 100000000 + late - (t0 + 10000 * (10000 * (((1 : ℕ) : ℤ) - 1))) = 100000000 + late := by push_cast; ring
      rw [this, Int.emod_eq_of_lt (by omega) (by omega)]
      omega
  refine (C41_check_partial fl hf b (by omega) s hc (fun i x y h => by have := hd i x y h; omega)).2.2
    ⟨⟨0, t0, t0 + 100000000 + late, ?_, ?_⟩, fun i x y h _ => hd i x y h⟩
  · rw [ht]
    constructor
    · rw [List.getElem?_append_left (by rw [length_regular]; omega), regular_getElem?]; constructor <;> simp
    · rw [List.getElem?_append_right (by rw [length_regular]), regular_getElem?, length_regular]; constructor <;> simp
  · intro h; have := Nat.le_of_dvd (by norm_num) h; omega

/-- **C41 violated: short recordings.**  A recording of at most one buffer, however regular, makes the check raise IndexError. -/
theorem C41_short_violated (fl : ℚ → ℚ) (b : ℕ) (hb : 0 < b) (s : Session) (hm : (s.get .time).length ≤ 10000) :
    s.checkTimediffs fl (10000 * b) = .error .indexError := by
  have : (chunks (10000 * b) (s.get .time)).flatMap (fun c => diffs 64 (strided 10000 c)) = [] := by
    rw [List.eq_nil_iff_forall_not_mem]
    intro d hd
    obtain ⟨i, x, y, -, h2, -⟩ := (mem_checked b hb (s.get .time) d).1 hd
    obtain ⟨h3, -⟩ := List.getElem?_eq_some_iff.1 h2
    omega
  unfold Session.checkTimediffs Session.timediffs
  rw [this]
  rfl

/-! ## C42: errors in the log -/

/-- **C42.**  The count is zero without log, and every entry adds one exactly if it is at or above the level. -/
theorem C42_count (level : ℤ) : countErrors none level = 0 ∧ countErrors (some []) level = 0 ∧
    (∀ x l, level ≤ x → countErrors (some (x :: l)) level = countErrors (some l) level + 1) ∧
    (∀ x l, x < level → countErrors (some (x :: l)) level = countErrors (some l) level) := by
  refine ⟨rfl, rfl, ?_, ?_⟩
  · intro x l h; simp [countErrors, h]
  · intro x l h; simp [countErrors, h]

/-- **C42, histories.**  Counts of appended logs add up, a lower level never counts less, and none are counted exactly if all entries are below the level. -/
theorem C42_history (a b : List ℤ) (level level' : ℤ) :
    countErrors (some (a ++ b)) level = countErrors (some a) level + countErrors (some b) level ∧
    (level ≤ level' → countErrors (some a) level' ≤ countErrors (some a) level) ∧
    (countErrors (some a) level = 0 ↔ ∀ x ∈ a, x < level) := by
  refine ⟨by simp [countErrors], ?_, by simp [countErrors]⟩
  intro h
  induction a with
  | nil => simp [countErrors]
  | cons x a ih =>
    by_cases h1 : level' ≤ x
    · rw [(C42_count level').2.2.1 x a h1, (C42_count level).2.2.1 x a (by omega)]; omega
    · rw [(C42_count level').2.2.2 x a (by omega)]
      by_cases h2 : level ≤ x
      · rw [(C42_count level).2.2.1 x a h2]; omega
      · rw [(C42_count level).2.2.2 x a (by omega)]; exact ih

/-- Warnings (30) are not counted, errors (40) and critical entries (50) are. -/
example : countErrors (some [20, 40, 30, 50, 40]) 40 = 3 := by decide

/-! ## C43: voltage step -/

/-- `n` is the smallest rise between neighbours of the list. -/
def SmallestRise (l : List ℤ) (n : ℤ) : Prop :=
  0 < n ∧ (∃ i a b, l[i]? = some a ∧ l[i + 1]? = some b ∧ b - a = n) ∧
    ∀ i a b, l[i]? = some a → l[i + 1]? = some b → a < b → n ≤ b - a

theorem foldl_min_int (l : List ℤ) (a : ℤ) : l.foldl min a ∈ a :: l ∧ ∀ x ∈ a :: l, l.foldl min a ≤ x := by
  induction l generalizing a with
  | nil => simp
  | cons y l ih =>
    obtain ⟨h1, h2⟩ := ih (min a y)
    simp only [List.foldl_cons]
    constructor
    · rcases List.mem_cons.1 h1 with h | h
      · rcases min_choice a y with h3 | h3
        · rw [h, h3]; simp
        · rw [h, h3]; simp
      · simp [h]
    · intro x hx
      have h3 := h2 (min a y) (by simp)
      rcases List.mem_cons.1 hx with rfl | hx
      · exact h3.trans (min_le_left _ _)
      · rcases List.mem_cons.1 hx with rfl | hx
        · exact h3.trans (min_le_right _ _)
        · exact h2 x (by simp [hx])

/-- No step in a configuration of the data group. -/
theorem no_step {d : Attrs} (h : ∀ c, d "config" = some (.cfg c) → c.hrvVoltageStep = none) : (getConfig d).bind (·.hrvVoltageStep) = none := by
  unfold getConfig
  split
  · exact h _ (by assumption)
  · rfl

/-- **C43 (partial: in raw units, codes below 2^31).**  Without configuration, the step is a thousandth of the smallest positive raw increment of the first 2000 samples,
if all of them are below 2^31; there is none exactly if no voltage changes. -/
theorem C43_raw_partial (fl : ℚ → ℚ) (s : Session) (hcfg' : ∀ c, s.dattrs "config" = some (.cfg c) → c.hrvVoltageStep = none)
    (hr : ∀ x ∈ (s.get .voltage).take 2000, 0 ≤ x ∧ x < 2^31) (n : ℤ) (hn : SmallestRise ((s.get .voltage).take 2000) n) :
    s.voltageStep fl = some (fl (fl (1/1000) * n)) := by
  have hcfg := no_step hcfg'
  obtain ⟨hpos, ⟨i, a, b, ha, hb, hab⟩, hmin⟩ := hn
  have hmem : ∀ d, d ∈ (diffs 32 ((s.get .voltage).take 2000)).filter (fun x => x > 0) ↔
      d > 0 ∧ ∃ i a b, ((s.get .voltage).take 2000)[i]? = some a ∧ ((s.get .voltage).take 2000)[i + 1]? = some b ∧ d = (b - a) % 2^32 := by
    intro d; rw [List.mem_filter, mem_diffs]; simp [and_comm]
  have hrange : ∀ (i : ℕ) (a : ℤ), ((s.get .voltage).take 2000)[i]? = some a → 0 ≤ a ∧ a < 2^31 := fun i a h => hr a (List.mem_of_getElem? h)
  have hn_mem : n ∈ (diffs 32 ((s.get .voltage).take 2000)).filter (fun x => x > 0) := by
    refine (hmem n).2 ⟨hpos, i, a, b, ha, hb, ?_⟩
    have h1 := hrange i a ha
    have h2 := hrange _ b hb
    rw [hab, Int.emod_eq_of_lt (by omega) (by omega)]
  have hle : ∀ d ∈ (diffs 32 ((s.get .voltage).take 2000)).filter (fun x => x > 0), n ≤ d := by
    intro d hd
    obtain ⟨h0, j, x, y, hx, hy, rfl⟩ := (hmem d).1 hd
    have h1 := hrange j x hx
    have h2 := hrange _ y hy
    rcases lt_trichotomy x y with h | h | h
    · rw [Int.emod_eq_of_lt (by omega) (by omega)]
      exact hmin j x y hx hy h
    · subst h; simp at h0
    · have : (y - x) % 2^32 = y - x + 2^32 := by
        rw [← Int.add_emod_right, Int.emod_eq_of_lt (by omega) (by omega)]
      rw [this]
      have h3 := hrange i a ha
      have h4 := hrange _ b hb
      omega
  unfold Session.voltageStep
  rw [hcfg]
  dsimp only
  cases hl : (diffs 32 ((s.get .voltage).take 2000)).filter (fun x => x > 0) with
  | nil => rw [hl] at hn_mem; cases hn_mem
  | cons d ds =>
    rw [hl] at hn_mem hle
    dsimp only
    obtain ⟨h1, h2⟩ := foldl_min_int ds d
    rw [le_antisymm (h2 n hn_mem) (hle _ h1)]

/-- **C43, static voltages.**  No step is reported exactly if no voltage of the first 2000 samples changes (codes within 32 bit). -/
theorem C43_static (fl : ℚ → ℚ) (s : Session) (hcfg' : ∀ c, s.dattrs "config" = some (.cfg c) → c.hrvVoltageStep = none)
    (hr : ∀ x ∈ (s.get .voltage).take 2000, 0 ≤ x ∧ x < 2^32) :
    s.voltageStep fl = none ↔ ∀ i a b, ((s.get .voltage).take 2000)[i]? = some a → ((s.get .voltage).take 2000)[i + 1]? = some b → a = b := by
  have hcfg := no_step hcfg'
  have hmem : ∀ d, d ∈ (diffs 32 ((s.get .voltage).take 2000)).filter (fun x => x > 0) ↔
      d > 0 ∧ ∃ i a b, ((s.get .voltage).take 2000)[i]? = some a ∧ ((s.get .voltage).take 2000)[i + 1]? = some b ∧ d = (b - a) % 2^32 := by
    intro d; rw [List.mem_filter, mem_diffs]; simp [and_comm]
  have hnil : s.voltageStep fl = none ↔ (diffs 32 ((s.get .voltage).take 2000)).filter (fun x => x > 0) = [] := by
    unfold Session.voltageStep
    rw [hcfg]
    dsimp only
    cases (diffs 32 ((s.get .voltage).take 2000)).filter (fun x => x > 0) <;> simp
  rw [hnil, List.eq_nil_iff_forall_not_mem]
  constructor
  · intro h i a b ha hb
    by_contra hne
    have h1 := hr a (List.mem_of_getElem? ha)
    have h2 := hr b (List.mem_of_getElem? hb)
    refine h ((b - a) % 2^32) ((hmem _).2 ⟨?_, i, a, b, ha, hb, rfl⟩)
    have h3 : 0 ≤ (b - a) % 2^32 := Int.emod_nonneg _ (by norm_num)
    have h4 : (b - a) % 2^32 ≠ 0 := by
      intro h5
      have := Int.dvd_of_emod_eq_zero h5
      omega
    omega
  · intro h d hd
    obtain ⟨h0, i, a, b, ha, hb, rfl⟩ := (hmem d).1 hd
    rw [h i a b ha hb] at h0
    simp at h0

/-- **C43 violated: unit.**  Even in exact arithmetic the reported step is not the increment in volts: it is 1/1000 per code instead of the gain of the calibration (default 3 nV).
The property fails for every such recording, unless the gain happens to be 1/1000. -/
theorem C43_unit_violated (s : Session) (hcfg' : ∀ c, s.dattrs "config" = some (.cfg c) → c.hrvVoltageStep = none)
    (hr : ∀ x ∈ (s.get .voltage).take 2000, 0 ≤ x ∧ x < 2^31) (n : ℤ) (hn : SmallestRise ((s.get .voltage).take 2000) n)
    (hg : s.cal.voltage.gain ≠ 1/1000) : s.voltageStep exact ≠ some (n * s.cal.voltage.gain) := by
  rw [C43_raw_partial exact s hcfg' hr n hn]
  simp only [exact, ne_eq, Option.some.injEq]
  intro h
  have hn0 : (n : ℚ) ≠ 0 := by exact_mod_cast hn.1.ne'
  rw [mul_comm] at h
  exact hg (mul_left_cancel₀ hn0 h).symm

/-- **C43 violated: falling ramps.**  For a ramp that only falls (by less than 2^31 per step), the subtraction wraps around: the reported step is beyond 2,000,000, not the size of a step. -/
theorem C43_falling_violated (s : Session) (hcfg' : ∀ c, s.dattrs "config" = some (.cfg c) → c.hrvVoltageStep = none) (n : ℕ)
    (hv : (s.get .voltage).take 2000 = [(n : ℤ) + 1, n]) : s.voltageStep exact = some ((2^32 - 1) / 1000) := by
  have hcfg := no_step hcfg'
  unfold Session.voltageStep
  rw [hcfg, hv]
  have : diffs 32 [(n : ℤ) + 1, n] = [2^32 - 1] := by
    simp only [diffs, List.tail_cons, List.zipWith_cons_cons, List.zipWith_nil_right]
    have : ((n : ℤ) - (n + 1)) % 2^32 = 2^32 - 1 := by
      have : (n : ℤ) - (n + 1) = -1 := by ring
      rw [this]; rfl
    rw [this]
  rw [this]
  simp [exact]
  norm_num

/-- **C43, configured.**  With a harvester configuration in the data group the step is the configured one in volts. -/
theorem C43_configured (fl : ℚ → ℚ) (s : Session) (c : Config) (v : ℚ) (hc : s.dattrs "config" = some (.cfg c)) (hv : c.hrvVoltageStep = some v) :
    s.voltageStep fl = some (fl (fl (1/1000) * v)) := by
  have hcfg : (getConfig s.dattrs).bind (·.hrvVoltageStep) = some v := by
    unfold getConfig
    rw [hc]
    exact hv
  unfold Session.voltageStep
  rw [hcfg]

/-! ## C44: redundant GPIO states -/

/-- The state according to a list of (time, state) changes: that of the last entry not later than `t`. -/
def stateAt : List (ℤ × ℤ) → ℤ → Option ℤ
  | [], _ => none
  | p :: l, t => (stateAt l t).or (if p.1 ≤ t then some p.2 else none)

/-- Marks entries that differ from their predecessor. -/
def changed : ℤ → List ℤ → List Bool
  | _, [] => []
  | d, x :: l => decide (x ≠ d) :: changed x l

theorem zip_changed (d : ℤ) (l : List ℤ) : List.zipWith (fun a b => decide (a ≠ b)) l ((d :: l).dropLast) = changed d l := by
  induction l generalizing d with
  | nil => rfl
  | cons x l ih =>
    rw [List.dropLast_cons_of_ne_nil (by simp), List.zipWith_cons_cons, ih]
    rfl

theorem redundantFilter_eq (d : ℤ) (l : List ℤ) : redundantFilter (d :: l) = .ok (true :: changed d l) := by
  unfold redundantFilter
  dsimp only
  rw [List.zipWith_cons_cons, zip_changed]
  congr 2
  by_cases h : d = 0 <;> simp [h]

theorem maskBy_cons {α : Type} (x : α) (l : List α) (b : Bool) (m : List Bool) :
    maskBy (x :: l) (b :: m) = if b then x :: maskBy l m else maskBy l m := by
  cases b <;> simp [maskBy]

theorem maskBy_changed_neighbours (d : ℤ) (l : List ℤ) : List.IsChain (· ≠ ·) (d :: maskBy l (changed d l)) := by
  induction l generalizing d with
  | nil => simp [maskBy, changed]
  | cons x l ih =>
    rw [changed, maskBy_cons]
    by_cases h : x = d
    · subst h; simpa using ih x
    · simp only [h, ne_eq, not_false_eq_true, decide_true, if_true]
      rw [List.isChain_cons_cons]
      exact ⟨fun h2 => h h2.symm, ih x⟩

theorem changed_of_chain (d : ℤ) (l : List ℤ) (h : List.IsChain (· ≠ ·) (d :: l)) : changed d l = List.replicate l.length true := by
  induction l generalizing d with
  | nil => rfl
  | cons x l ih =>
    rw [List.isChain_cons_cons] at h
    rw [changed, ih x h.2, List.length_cons, List.replicate_succ]
    simp [Ne.symm h.1]

/-- **C44, the filter.**  For every non-empty state vector: the first entry is kept, the kept entries are a subsequence, neighbours of it differ, and filtering again keeps everything. -/
theorem C44_filter (data : List ℤ) (hne : data ≠ []) :
    ∃ m, redundantFilter data = .ok m ∧ m.length = data.length ∧ m.head? = some true ∧ (maskBy data m).Sublist data ∧
      (maskBy data m).head? = data.head? ∧ List.IsChain (· ≠ ·) (maskBy data m) ∧
      redundantFilter (maskBy data m) = .ok (List.replicate (maskBy data m).length true) := by
  cases data with
  | nil => exact absurd rfl hne
  | cons d l =>
    refine ⟨_, redundantFilter_eq d l, ?_, rfl, ?_, ?_, ?_, ?_⟩
    · have : ∀ (d : ℤ) (l : List ℤ), (changed d l).length = l.length := by
        intro d l
        induction l generalizing d with
        | nil => rfl
        | cons x l ih => simp [changed, ih]
      simp [this]
    · have : ∀ (l : List ℤ) (m : List Bool), (maskBy l m).Sublist l := by
        intro l
        induction l with
        | nil => intro m; simp [maskBy]
        | cons x l ih =>
          intro m
          cases m with
          | nil => simp [maskBy]
          | cons b m =>
            rw [maskBy_cons]
            cases b
            · exact (ih m).cons _
            · exact (ih m).cons_cons _
      exact this _ _
    · rw [maskBy_cons]; rfl
    · rw [maskBy_cons]; exact maskBy_changed_neighbours d l
    · have hc : maskBy (d :: l) (true :: changed d l) = d :: maskBy l (changed d l) := by rw [maskBy_cons]; rfl
      rw [hc, redundantFilter_eq, changed_of_chain _ _ (maskBy_changed_neighbours d l)]
      rfl

/-- An empty state vector (a recording without GPIO events) raises IndexError. -/
theorem C44_empty_violated : redundantFilter [] = .error .indexError ∧ ∀ ts pin, pinWaveform ts [] pin = .error .indexError := ⟨rfl, fun _ _ => rfl⟩

theorem stateAt_changed (p : ℤ × ℤ) (ts ps : List ℤ) (hlen : ts.length = ps.length) (hs : List.IsChain (· ≤ ·) (p.1 :: ts)) (t : ℤ) :
    stateAt (p :: (maskBy ts (changed p.2 ps)).zip (maskBy ps (changed p.2 ps))) t = stateAt (p :: ts.zip ps) t := by
  induction ps generalizing p ts with
  | nil =>
    cases ts with
    | nil => rfl
    | cons => simp at hlen
  | cons v ps ih =>
    cases ts with
    | nil => simp at hlen
    | cons u ts =>
      rw [List.isChain_cons_cons] at hs
      have hi := ih (u, v) ts (by simpa using hlen) hs.2
      rw [changed, maskBy_cons, maskBy_cons, List.zip_cons_cons]
      by_cases h : v = p.2
      · subst h
        simp only [ne_eq, not_true_eq_false, decide_false, Bool.false_eq_true, if_false]
        have e : stateAt (p :: (u, p.2) :: ts.zip ps) t = (stateAt ((u, p.2) :: ts.zip ps) t).or (if p.1 ≤ t then some p.2 else none) := rfl
        rw [e, ← hi]
        show (stateAt _ t).or _ = ((stateAt _ t).or _).or _
        rw [Option.or_assoc]
        congr 1
        by_cases hu : u ≤ t
        · rw [if_pos hu, if_pos (hs.1.trans hu)]; rfl
        · rw [if_neg hu]; rfl
      · simp only [ne_eq, h, not_false_eq_true, decide_true, if_true, List.zip_cons_cons]
        show (stateAt ((u, v) :: _) t).or _ = (stateAt ((u, v) :: _) t).or _
        rw [hi]

/-- **C44, waveforms.**  For GPIO samples in the order of time, the waveform of a pin gives for every time the state of the pin at the last sample before it: the removed samples carry no information. -/
theorem C44_waveform (ts vs : List ℤ) (pin : ℕ) (hne : vs ≠ []) (hlen : ts.length = vs.length) (hs : List.IsChain (· ≤ ·) ts) :
    ∃ wf, pinWaveform ts vs pin = .ok wf ∧
      (∀ t, stateAt wf t = stateAt (ts.zip (vs.map (fun v => if v.toNat.testBit pin then 1 else 0))) t) ∧
      List.IsChain (fun a b => a.2 ≠ b.2) wf ∧ (∀ p ∈ wf, p.2 = 0 ∨ p.2 = 1) := by
  cases vs with
  | nil => exact absurd rfl hne
  | cons v vs =>
    cases ts with
    | nil => simp at hlen
    | cons t0 ts =>
      set f : ℤ → ℤ := fun v => if v.toNat.testBit pin then 1 else 0 with hf
      have hc : ∀ (a : ℤ) (l : List ℤ) (m : List Bool), maskBy (a :: l) (true :: m) = a :: maskBy l m := by
        intro a l m; rw [maskBy_cons]; rfl
      refine ⟨(maskBy (t0 :: ts) (true :: changed (f v) (vs.map f))).zip (maskBy (f v :: vs.map f) (true :: changed (f v) (vs.map f))), ?_, ?_, ?_, ?_⟩
      · unfold pinWaveform
        dsimp only
        rw [List.map_cons, redundantFilter_eq]
      · intro t
        rw [hc, hc, List.zip_cons_cons, List.map_cons, List.zip_cons_cons]
        exact stateAt_changed (t0, f v) ts (vs.map f) (by simpa using hlen) hs t
      · have h1 := maskBy_changed_neighbours (f v) (vs.map f)
        rw [← hc] at h1
        generalize maskBy (f v :: vs.map f) (true :: changed (f v) (vs.map f)) = b at h1
        generalize maskBy (t0 :: ts) (true :: changed (f v) (vs.map f)) = a
        induction a generalizing b with
        | nil => simp
        | cons x a ih =>
          cases b with
          | nil => simp
          | cons y b =>
            cases a with
            | nil => simp
            | cons x' a => cases b with
              | nil => simp
              | cons y' b =>
                rw [List.isChain_cons_cons] at h1
                simp only [List.zip_cons_cons] at ih ⊢
                rw [List.isChain_cons_cons]
                exact ⟨h1.1, ih (y' :: b) h1.2⟩
      · intro p hp
        have h1 := (List.of_mem_zip hp).2
        have h2 : ∀ (l : List ℤ) (m : List Bool), ∀ x ∈ maskBy l m, x ∈ l := by
          intro l m x hx
          unfold maskBy at hx
          obtain ⟨q, hq, e⟩ := List.mem_filterMap.1 hx
          split at e
          · cases e; exact (List.of_mem_zip hq).1
          · cases e
        have h3 := h2 _ _ _ h1
        rw [← List.map_cons] at h3
        obtain ⟨w, -, hw⟩ := List.mem_map.1 h3
        rw [← hw, hf]
        dsimp only
        split <;> simp

/-- Pin 1 of five samples: the initial state and two changes remain. -/
example : (match pinWaveform [10, 20, 30, 40, 50] [2, 3, 1, 0, 6] 1 with | .ok l => decide (l = [(10, 1), (30, 0), (50, 1)]) | .error _ => false) = true := by decide

/-! ## C45: SI values written and read back -/

/-- **C02 in machine arithmetic.**  An SI value stored as code and converted back is off by at most half a step plus a 2000th of a step, for offsets up to 2^40 steps. -/
theorem C02_si_raw_si_float {fl : ℚ → ℚ} (h : AccRounding fl) (c : CalPair) (hg : 1 / 10^100 ≤ c.gain) (ho : |c.offset| ≤ 2^40 * c.gain)
    (x : ℚ) (hx0 : c.offset ≤ x) (hx : x - c.offset ≤ 2^32 * c.gain) :
    |c.rawToSi fl (c.siToRaw fl x) - x| ≤ c.gain * (1/2 + 1/2^11) := (back_error h c hg ho x hx0 hx).1

/-- Everything in a dataset, in SI units. -/
def readback (fl : ℚ → ℚ) (s : Session) (n : DsName) : List ℚ := (s.get n).map (fun x : ℤ => (s.cal.get n).rawToSi fl x)

/-- `x` lies within the range of 32 bit codes of a pair. -/
def InRange (c : CalPair) (x : ℚ) : Prop := c.offset ≤ x ∧ x - c.offset ≤ (2^32 - 2) * c.gain

theorem clamp_code {fl : ℚ → ℚ} (h : AccRounding fl) (c : CalPair) (hg : 1 / 10^100 ≤ c.gain) (ho : |c.offset| ≤ 2^40 * c.gain) (x : ℚ) (hx : InRange c x)
    (n : DsName) : n.clamp (c.siToRaw fl x) = c.siToRaw fl x := by
  have hg0 : 0 < c.gain := lt_of_lt_of_le (by positivity) hg
  have h1 := (back_error h c hg ho x hx.1 (hx.2.trans (by nlinarith))).2
  have h2 : (x - c.offset) / c.gain ≤ 2^32 - 2 := by rw [div_le_iff₀ hg0]; exact hx.2
  have h3 : (c.siToRaw fl x : ℚ) < ((2^32 : ℤ) : ℚ) := by norm_num at h1 h2 ⊢; linarith
  have h4 : c.siToRaw fl x < 2^32 := by exact_mod_cast h3
  have h5 : 0 ≤ c.siToRaw fl x := pyRound_nonneg (le_max_right _ _)
  unfold DsName.clamp
  have h6 : c.siToRaw fl x ≤ n.max := by cases n <;> simp only [DsName.max] <;> omega
  rw [min_eq_left h6, max_eq_right h5]

/-- **C45, voltage and current.**  Appending SI samples adds as many samples as the shortest array has; reading everything back in SI units gives the old values followed by the new ones in order,
each off by at most half a step of its calibration (plus a 2000th of a step for the float arithmetic). -/
theorem C45_si_roundtrip (fl : ℚ → ℚ) (hf : AccRounding fl) (s s' : Session) (ts : StampSi) (vs cs : List ℚ) (h0 : EqualLengths s)
    (h : s.appendSi fl ts vs cs = .ok s')
    (hgv : 1 / 10^100 ≤ s.cal.voltage.gain ∧ |s.cal.voltage.offset| ≤ 2^40 * s.cal.voltage.gain)
    (hgc : 1 / 10^100 ≤ s.cal.current.gain ∧ |s.cal.current.offset| ≤ 2^40 * s.cal.current.gain)
    (hv : ∀ x ∈ vs, InRange s.cal.voltage x) (hc : ∀ x ∈ cs, InRange s.cal.current x) :
    (∃ w, readback fl s' .voltage = readback fl s .voltage ++ w ∧
      List.Forall₂ (fun y x => |y - x| ≤ s.cal.voltage.gain * (1/2 + 1/2^11)) w (vs.take (shortest (.si ts vs cs)))) ∧
    (∃ w, readback fl s' .current = readback fl s .current ++ w ∧
      List.Forall₂ (fun y x => |y - x| ≤ s.cal.current.gain * (1/2 + 1/2^11)) w (cs.take (shortest (.si ts vs cs)))) := by
  obtain ⟨hsame, hget⟩ := call_step fl (c := .si ts vs cs) h
  have hcal : s'.cal = s.cal := hsame.2.2.2.1
  have gen : ∀ (n : DsName) (l : List ℚ), 1 / 10^100 ≤ (s.cal.get n).gain → |(s.cal.get n).offset| ≤ 2^40 * (s.cal.get n).gain →
      (∀ x ∈ l, InRange (s.cal.get n) x) → offered fl s.cal s.stats.intervalNs (.si ts vs cs) n = l.map (fun x => (s.cal.get n).siToRaw fl x) →
      ∃ w, readback fl s' n = readback fl s n ++ w ∧
        List.Forall₂ (fun y x => |y - x| ≤ (s.cal.get n).gain * (1/2 + 1/2^11)) w (l.take (shortest (.si ts vs cs))) := by
    intro n l hg ho hr he
    refine ⟨(l.take (shortest (.si ts vs cs))).map (fun x => (s.cal.get n).rawToSi fl ((s.cal.get n).siToRaw fl x)), ?_, ?_⟩
    · unfold readback
      rw [hget n, hcal, he, List.map_append, resizeList_le _ _ (h0 n).ge, ← h0 n, List.take_length, ← List.map_take, List.map_map, List.map_map]
      congr 1
      refine List.map_congr_left (fun x hx => ?_)
      simp only [Function.comp]
      rw [clamp_code hf _ hg ho x (hr x (List.mem_of_mem_take hx))]
    · rw [List.forall₂_map_left_iff, List.forall₂_same]
      intro x hx
      have hx' := hr x (List.mem_of_mem_take hx)
      have hg0 : 0 < (s.cal.get n).gain := lt_of_lt_of_le (by positivity) hg
      exact C02_si_raw_si_float hf _ hg ho x hx'.1 (hx'.2.trans (by nlinarith))
  exact ⟨gen .voltage vs hgv.1 hgv.2 hv rfl, gen .current cs hgc.1 hgc.2 hc rfl⟩

/-- The default calibration and the values of a 5 V / 50 mA recorder meet the hypotheses. -/
example : (1 / 10^100 ≤ (CalSeries.default exact).voltage.gain ∧ |(CalSeries.default exact).voltage.offset| ≤ 2^40 * (CalSeries.default exact).voltage.gain) ∧
    InRange (CalSeries.default exact).voltage 5 ∧ InRange (CalSeries.default exact).current (1/20) := by
  simp only [CalSeries.default, InRange, exact]
  norm_num

theorem time_error {fl : ℚ → ℚ} (h : AccRounding fl) (g : ℚ) (hg : 1 / 10^100 ≤ g) (t : ℚ) (ht : 0 ≤ t) :
    |(⟨g, 0⟩ : CalPair).rawToSi fl ((⟨g, 0⟩ : CalPair).siToRaw fl t) - t| ≤ g * (1/2 + 1/2^20) + t / 2^50 := by
  have hg0 : 0 < g := lt_of_lt_of_le (by positivity) hg
  have htn := tiny_div hg
  have h75 : (2:ℚ)^(-1075:ℤ) ≤ 1/2^60 := by
    refine le_trans tiny_le ?_
    have : (1:ℚ)/10^100 ≤ 1 := by norm_num
    calc (1:ℚ)/2^60 * (1/10^100) ≤ 1/2^60 * 1 := mul_le_mul_of_nonneg_left this (by positivity)
      _ = _ := by ring
  have hT0 : 0 ≤ t / g := div_nonneg ht hg0.le
  have e1 := err_div h hg0 t
  have ha0 : 0 ≤ fl t := h.toRounding.nonneg ht
  have hA0 : 0 ≤ fl t / g := div_nonneg ha0 hg0.le
  have e2 := h.err (fl t / g)
  have hb0 : 0 ≤ fl (fl t / g) := h.toRounding.nonneg hA0
  have e3 := abs_pyRound_sub_le (fl (fl t / g))
  have hr : (⟨g, 0⟩ : CalPair).siToRaw fl t = pyRound (fl (fl t / g)) := by
    simp only [CalPair.siToRaw, sub_zero]
    rw [max_eq_left hb0]
  have hr0 : 0 ≤ pyRound (fl (fl t / g)) := pyRound_nonneg hb0
  rw [hr]
  generalize pyRound (fl (fl t / g)) = r at *
  have hrq : (0:ℚ) ≤ r := by exact_mod_cast hr0
  have e4 := h.err (r : ℚ)
  have hfr0 : 0 ≤ fl (r : ℚ) := h.toRounding.nonneg hrq
  have e5 := err_div h hg0 (fl (r : ℚ) * g)
  rw [mul_div_cancel_right₀ _ hg0.ne'] at e5
  have hsi : (⟨g, 0⟩ : CalPair).rawToSi fl (r : ℚ) = fl (fl (r : ℚ) * g) := by
    simp only [CalPair.rawToSi, add_zero, Bool.not_true, Bool.false_eq_true, if_false, h.idem]
  rw [hsi]
  rw [abs_of_nonneg hT0] at e1
  rw [abs_of_nonneg hA0] at e2
  rw [abs_of_nonneg hrq] at e4
  rw [abs_of_nonneg hfr0] at e5
  have hgoal : |fl (fl (r : ℚ) * g) / g - t / g| ≤ (1/2 + 1/2^20) + t / g / 2^50 := by
    generalize (2:ℚ)^(-1075:ℤ) / g = τ at *
    generalize (2:ℚ)^(-1075:ℤ) = η at *
    generalize t / g = T at *
    generalize fl t / g = A at *
    generalize fl A = B at *
    generalize fl (r : ℚ) = F at *
    generalize fl (F * g) / g = G at *
    generalize (r : ℚ) = R at *
    rw [abs_le] at *
    norm_num at *
    constructor <;> linarith [e1.1, e1.2, e2.1, e2.2, e3.1, e3.2, e4.1, e4.2, e5.1, e5.2]
  rw [← sub_div, abs_div, abs_of_pos hg0, div_le_iff₀ hg0] at hgoal
  have : (1 / 2 + 1 / 2 ^ 20 + t / g / 2 ^ 50) * g = g * (1/2 + 1/2^20) + t / 2^50 := by
    field_simp
  linarith

/-- **C45, time stamps (partial: resolution of floats).**  A time stamp comes back within half a nano-second plus 2^-50 of the time itself. -/
theorem C45_time_partial (fl : ℚ → ℚ) (hf : AccRounding fl) (t : ℚ) (ht : 0 ≤ t) :
    |(CalSeries.default fl).time.rawToSi fl ((CalSeries.default fl).time.siToRaw fl t) - t| ≤ fl (1/10^9) * (1/2 + 1/2^20) + t / 2^50 := by
  refine time_error hf (fl (1/10^9)) ?_ t ht
  obtain ⟨g1, -⟩ := acc_rel hf (x := 1/10^9) (by norm_num)
  refine le_trans ?_ g1
  norm_num

/-- In exact arithmetic it is half a nano-second. -/
theorem C45_time_exact (t : ℚ) (ht : 0 ≤ t) :
    |(CalSeries.default exact).time.rawToSi exact ((CalSeries.default exact).time.siToRaw exact t) - t| ≤ 1/10^9/2 := by
  have := C02_si_raw_si (CalSeries.default exact).time (by simp [CalPair.Valid, CalSeries.default, exact]) t ht
  simpa [CalSeries.default, exact] using this

/-- **C45 violated: time stamps.**  In double precision the UNIX time 2^30 s (in 2004) comes back more than 100 ns off. -/
theorem C45_time_violated : 100 / 10^9 < |(CalSeries.default b64).time.rawToSi b64 ((CalSeries.default b64).time.siToRaw b64 (2^30)) - 2^30| := by
  decide +kernel

end Verif.Props

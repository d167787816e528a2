import Verif.Model.CalBytes
import Verif.Model.Calibration
import Verif.Py.Binary64
import Mathlib.Tactic.Ring
import Mathlib.Tactic.Linarith
import Mathlib.Tactic.NormNum
import Mathlib.Tactic.Positivity
import Mathlib.Tactic.IntervalCases

/-! # C04: cape calibration in the EEPROM -/

namespace Verif.Props
open Verif.Model Verif.Py

/-! ## Specification -/

/-- Number for a list of bytes, the highest first. -/
def bigEndian : List ℕ → ℕ
  | [] => 0
  | b :: t => b * 256 ^ t.length + bigEndian t

/-- The rational number that 64 bits stand for (IEEE 754), for finite numbers. -/
def doubleVal (b : ℕ) : ℚ :=
  let e : ℕ := b / 2 ^ 52 % 2 ^ 11
  let f : ℕ := b % 2 ^ 52
  (if 2 ^ 63 ≤ b then -1 else 1) * (if e = 0 then (f : ℚ) * 2 ^ (-1074 : ℤ) else ((2 ^ 52 + f : ℕ) : ℚ) * 2 ^ ((e : ℤ) - 1075))

/-- 64 bits that stand for a number: neither infinite nor NaN. -/
def IsFinite (b : ℕ) : Prop := b < 2 ^ 64 ∧ b / 2 ^ 52 % 2 ^ 11 ≠ 2047

/-- The eight pairs of a calibration. -/
def BinCape.pairs (c : BinCape) : List BinPair :=
  [c.harvester.dacVHrv, c.harvester.dacVSim, c.harvester.adcVSense, c.harvester.adcCHrv, c.emulator.dacVA, c.emulator.dacVB, c.emulator.adcCA, c.emulator.adcCB]

/-- The 16 gains and offsets of a calibration. -/
def BinCape.numbers (c : BinCape) : List ℕ := (BinCape.pairs c).flatMap (fun p => [p.gain, p.offset])

/-- A calibration that can exist: gains and offsets are numbers, gains are positive. -/
def ValidCape (c : BinCape) : Prop := ∀ p ∈ BinCape.pairs c, IsFinite p.gain ∧ IsFinite p.offset ∧ 0 < doubleVal p.gain

/-- The 64 bits number `i` in a byte string. -/
def doubleAt (data : List ℕ) (i : ℕ) : ℕ := bigEndian ((data.drop (8 * i)).take 8)

/-- Bytes. -/
def IsBytes (data : List ℕ) : Prop := ∀ b ∈ data, b < 256

/-! ## Helpers -/

theorem dblPositive_iff {b : ℕ} (h : IsFinite b) : dblPositive b = true ↔ 0 < doubleVal b := by
  obtain ⟨h1, h2⟩ := h
  unfold dblPositive doubleVal
  simp only [Bool.and_eq_true, decide_eq_true_eq]
  by_cases hs : 2 ^ 63 ≤ b
  · constructor
    · rintro ⟨-, h⟩; omega
    · intro h
      rw [if_pos hs] at h
      exfalso
      have : (0 : ℚ) ≤ (if b / 2 ^ 52 % 2 ^ 11 = 0 then ((b % 2 ^ 52 : ℕ) : ℚ) * 2 ^ (-1074 : ℤ)
        else ((2 ^ 52 + b % 2 ^ 52 : ℕ) : ℚ) * 2 ^ (((b / 2 ^ 52 % 2 ^ 11 : ℕ) : ℤ) - 1075)) := by
        split <;> positivity
      linarith
  · rw [if_neg hs, one_mul]
    have hb : b ≤ 0x7FF0000000000000 := by omega
    constructor
    · rintro ⟨h0, -⟩
      split
      · rename_i he
        have : 0 < b % 2 ^ 52 := by omega
        have : (0 : ℚ) < ((b % 2 ^ 52 : ℕ) : ℚ) := by exact_mod_cast this
        positivity
      · have : (0 : ℚ) < ((2 ^ 52 + b % 2 ^ 52 : ℕ) : ℚ) := by
          have : 0 < 2 ^ 52 + b % 2 ^ 52 := by omega
          exact_mod_cast this
        positivity
    · intro h
      refine ⟨?_, hb⟩
      rcases Nat.eq_zero_or_pos b with h0 | h0
      · subst h0; norm_num at h
      · exact h0

theorem pairCheck_iff {p : BinPair} (hg : p.gain < 2 ^ 64) (ho : p.offset < 2 ^ 64) :
    p.check = true ↔ IsFinite p.gain ∧ IsFinite p.offset ∧ 0 < doubleVal p.gain := by
  unfold BinPair.check dblFinite
  simp only [Bool.and_eq_true, decide_eq_true_eq]
  constructor
  · rintro ⟨⟨h1, h2⟩, h3⟩
    exact ⟨⟨hg, h2⟩, ⟨ho, h3⟩, (dblPositive_iff ⟨hg, h2⟩).mp h1⟩
  · rintro ⟨h1, h2, h3⟩
    exact ⟨⟨(dblPositive_iff h1).mpr h3, h1.2⟩, h2.2⟩

theorem capeCheck_iff {c : BinCape} (h : ∀ n ∈ BinCape.numbers c, n < 2 ^ 64) : c.check = true ↔ ValidCape c := by
  have h' : ∀ p ∈ BinCape.pairs c, p.gain < 2 ^ 64 ∧ p.offset < 2 ^ 64 := by
    intro p hp
    exact ⟨h _ (List.mem_flatMap.mpr ⟨p, hp, by simp⟩), h _ (List.mem_flatMap.mpr ⟨p, hp, by simp⟩)⟩
  have : c.check = true ↔ ∀ p ∈ BinCape.pairs c, p.check = true := by
    simp [BinCape.check, BinCape.pairs, and_assoc]
  rw [this]
  exact forall₂_congr fun p hp => pairCheck_iff (h' p hp).1 (h' p hp).2

theorem floats_unit (w : List String) (r : List (List String × ℕ)) (l : List Char) :
    (l.map (fun c => (w, DLeaf.char c))).filterMap floatOf ++ r = r := by
  induction l with
  | nil => rfl
  | cons c t ih => simp [floatOf]

/-- The floats below a pair. -/
theorem walks_pair (pre : List String) (p : BinPair) :
    (walksVal pre p.dump).filterMap floatOf = [(pre ++ ["gain"], p.gain), (pre ++ ["offset"], p.offset)] := by
  obtain ⟨g, o, u⟩ := p
  cases u with
  | none => simp [BinPair.dump, walksVal, walks, floatOf]
  | some s =>
    have := floats_unit (pre ++ ["unit"]) [] s.toList
    rw [List.append_nil] at this
    simp only [BinPair.dump, walksVal, walks, List.filterMap_append, List.append_nil, this]
    simp [floatOf]

/-- The walks to the 16 floats. -/
theorem walks_cape (c : BinCape) : (walks [] c.dump).filterMap floatOf =
    [(["harvester", "dac_V_Hrv", "gain"], c.harvester.dacVHrv.gain), (["harvester", "dac_V_Hrv", "offset"], c.harvester.dacVHrv.offset),
     (["harvester", "dac_V_Sim", "gain"], c.harvester.dacVSim.gain), (["harvester", "dac_V_Sim", "offset"], c.harvester.dacVSim.offset),
     (["harvester", "adc_V_Sense", "gain"], c.harvester.adcVSense.gain), (["harvester", "adc_V_Sense", "offset"], c.harvester.adcVSense.offset),
     (["harvester", "adc_C_Hrv", "gain"], c.harvester.adcCHrv.gain), (["harvester", "adc_C_Hrv", "offset"], c.harvester.adcCHrv.offset),
     (["emulator", "dac_V_A", "gain"], c.emulator.dacVA.gain), (["emulator", "dac_V_A", "offset"], c.emulator.dacVA.offset),
     (["emulator", "dac_V_B", "gain"], c.emulator.dacVB.gain), (["emulator", "dac_V_B", "offset"], c.emulator.dacVB.offset),
     (["emulator", "adc_C_A", "gain"], c.emulator.adcCA.gain), (["emulator", "adc_C_A", "offset"], c.emulator.adcCA.offset),
     (["emulator", "adc_C_B", "gain"], c.emulator.adcCB.gain), (["emulator", "adc_C_B", "offset"], c.emulator.adcCB.offset)] := by
  simp only [BinCape.dump, walks, walksVal, List.filterMap_append, walks_pair, List.append_nil]
  simp

theorem toBytestr_eq (c : BinCape) : c.toBytestr = structPack (BinCape.numbers c) := by
  rw [BinCape.toBytestr, walks_cape]; rfl

theorem set3_cons (a b c : String) (x : ℕ) (d : DDict) :
    d.set3 [a, b, c] x = d.set a (.dict ((d.get a).asDict.set b (.dict (((d.get a).asDict.get b).asDict.set c (.float x))))) := rfl
theorem asDict_dict (d : DDict) : (DVal.dict d).asDict = d := rfl

theorem load_pair (p : BinPair) : BinPair.load p.dump = some p := by
  obtain ⟨g, o, u⟩ := p
  cases u <;> rfl

theorem load_cape (c : BinCape) (cape : Option ℕ) :
    BinCape.load c.dump cape = if c.check then .ok { c with cape := cape, host := none } else .error .valueError := by
  simp only [BinCape.load, BinCape.dump, DDict.get, asDict_dict, String.reduceEq, if_true, if_false, load_pair]
  rfl

/-- The calibration with 16 given numbers and the units of the default. -/
def capeOf (cape : Option ℕ) (v0 v1 v2 v3 v4 v5 v6 v7 v8 v9 v10 v11 v12 v13 v14 v15 : ℕ) : BinCape :=
  ⟨cape, none, ⟨⟨v0, v1, some "V"⟩, ⟨v2, v3, some "V"⟩, ⟨v4, v5, some "V"⟩, ⟨v6, v7, some "A"⟩⟩,
    ⟨⟨v8, v9, some "V"⟩, ⟨v10, v11, some "V"⟩, ⟨v12, v13, some "A"⟩, ⟨v14, v15, some "A"⟩⟩⟩

theorem fill_cape (cape : Option ℕ) (v0 v1 v2 v3 v4 v5 v6 v7 v8 v9 v10 v11 v12 v13 v14 v15 : ℕ) :
    ((((walks [] BinCape.default.dump).filterMap floatOf).zip [v0, v1, v2, v3, v4, v5, v6, v7, v8, v9, v10, v11, v12, v13, v14, v15]).foldl
      (fun d wv => d.set3 wv.1.1 wv.2) BinCape.default.dump) = (capeOf cape v0 v1 v2 v3 v4 v5 v6 v7 v8 v9 v10 v11 v12 v13 v14 v15).dump := by
  rw [walks_cape]
  simp only [List.zip_cons_cons, List.zip_nil_left, List.foldl_cons, List.foldl_nil, set3_cons]
  simp only [BinCape.default, BinCape.dump, BinPair.dump, DDict.get, DDict.set, asDict_dict, String.reduceEq, if_true, if_false, capeOf]

theorem packD_spec {b : ℕ} (h : b < 2 ^ 64) : bigEndian (packD b) = b := by
  simp only [packD, bigEndian, List.length_cons, List.length_nil]
  omega

theorem unpack_pack (l : List ℕ) (h : ∀ n ∈ l, n < 2 ^ 64) : structUnpack l.length (structPack l) = .ok l := by
  induction l with
  | nil => rfl
  | cons a t ih =>
    have ha := h a (by simp)
    have := ih (fun n hn => h n (by simp [hn]))
    show structUnpack (t.length + 1) (packD a ++ structPack t) = _
    simp only [packD, List.cons_append, List.nil_append, structUnpack, this]
    congr 2
    omega

theorem unpack_length {n : ℕ} {data l : List ℕ} (h : structUnpack n data = .ok l) : l.length = n ∧ data.length = 8 * n := by
  induction n generalizing data l with
  | zero =>
    match data, h with
    | [], h => cases h; simp
  | succ n ih =>
    match data, h with
    | a :: b :: c :: d :: e :: f :: g :: k :: t, h =>
      simp only [structUnpack] at h
      split at h
      · cases h
      · rename_i l' hl
        cases h
        have := ih hl
        simp [this.1, this.2]; omega

theorem unpack_ok {n : ℕ} {data : List ℕ} (h : data.length = 8 * n) : ∃ l, structUnpack n data = .ok l := by
  induction n generalizing data with
  | zero => simp at h; subst h; exact ⟨[], rfl⟩
  | succ n ih =>
    match data, h with
    | a :: b :: c :: d :: e :: f :: g :: k :: t, h =>
      obtain ⟨l, hl⟩ := ih (data := t) (by simp at h; omega)
      exact ⟨_, by simp only [structUnpack, hl]; rfl⟩
    | [], h | [_], h | [_, _], h | [_, _, _], h | [_, _, _, _], h | [_, _, _, _, _], h | [_, _, _, _, _, _], h
    | [_, _, _, _, _, _, _], h => exfalso; simp only [List.length_cons, List.length_nil] at h; omega

theorem unpack_error {n : ℕ} {data : List ℕ} (h : data.length ≠ 8 * n) : structUnpack n data = .error .structError := by
  induction n generalizing data with
  | zero => match data, h with | _ :: _, _ => rfl
  | succ n ih =>
    match data, h with
    | a :: b :: c :: d :: e :: f :: g :: k :: t, h =>
      have := ih (data := t) (by simp at h; omega)
      simp only [structUnpack, this]
    | [], h | [_], h | [_, _], h | [_, _, _], h | [_, _, _, _], h | [_, _, _, _, _], h | [_, _, _, _, _, _], h
    | [_, _, _, _, _, _, _], h => rfl

theorem unpack_at {n : ℕ} {data l : List ℕ} (h : structUnpack n data = .ok l) (i : ℕ) (hi : i < n) : l[i]? = some (doubleAt data i) := by
  induction n generalizing data l i with
  | zero => omega
  | succ n ih =>
    match data, h with
    | a :: b :: c :: d :: e :: f :: g :: k :: t, h =>
      simp only [structUnpack] at h
      split at h
      · cases h
      · rename_i l' hl
        cases h
        cases i with
        | zero =>
          simp only [doubleAt, bigEndian, Nat.mul_zero, List.drop_zero, List.take_succ_cons, List.take_zero, List.length_cons, List.length_nil,
            List.getElem?_cons_zero, Option.some.injEq]
          ring
        | succ i =>
          rw [List.getElem?_cons_succ, ih hl i (by omega)]
          rfl

theorem pack_unpack {n : ℕ} {data l : List ℕ} (hb : IsBytes data) (h : structUnpack n data = .ok l) : structPack l = data ∧ ∀ v ∈ l, v < 2 ^ 64 := by
  induction n generalizing data l with
  | zero =>
    match data, h with
    | [], h => cases h; exact ⟨rfl, by simp⟩
  | succ n ih =>
    match data, hb, h with
    | a :: b :: c :: d :: e :: f :: g :: k :: t, hb, h =>
      simp only [structUnpack] at h
      split at h
      · cases h
      · rename_i l' hl
        cases h
        have ht := ih (fun x hx => hb x (by simp [hx])) hl
        have := hb a (by simp); have := hb b (by simp); have := hb c (by simp); have := hb d (by simp)
        have := hb e (by simp); have := hb f (by simp); have := hb g (by simp); have := hb k (by simp)
        refine ⟨?_, ?_⟩
        · show packD _ ++ structPack l' = _
          rw [ht.1]
          simp only [packD, List.cons_append, List.nil_append, List.cons.injEq, and_true]
          refine ⟨?_, ?_, ?_, ?_, ?_, ?_, ?_, ?_⟩ <;> omega
        · intro v hv
          rcases List.mem_cons.mp hv with rfl | hv
          · omega
          · exact ht.2 v hv

theorem exists16 {l : List ℕ} (h : l.length = 16) : ∃ v0 v1 v2 v3 v4 v5 v6 v7 v8 v9 v10 v11 v12 v13 v14 v15,
    l = [v0, v1, v2, v3, v4, v5, v6, v7, v8, v9, v10, v11, v12, v13, v14, v15] := by
  match l, h with
  | [v0, v1, v2, v3, v4, v5, v6, v7, v8, v9, v10, v11, v12, v13, v14, v15], _ =>
    exact ⟨v0, v1, v2, v3, v4, v5, v6, v7, v8, v9, v10, v11, v12, v13, v14, v15, rfl⟩

/-- What a byte string of the right length is decoded to. -/
theorem fromBytestr_eq {data l : List ℕ} {cape : Option ℕ} (h : structUnpack 16 data = .ok l) :
    ∃ c : BinCape, BinCape.numbers c = l ∧ c.cape = cape ∧ c.host = none
      ∧ (BinCape.pairs c).map (·.unit) = [some "V", some "V", some "V", some "A", some "V", some "V", some "A", some "A"]
      ∧ BinCape.fromBytestr data cape = if c.check then .ok c else .error .valueError := by
  obtain ⟨v0, v1, v2, v3, v4, v5, v6, v7, v8, v9, v10, v11, v12, v13, v14, v15, rfl⟩ := exists16 (unpack_length h).1
  refine ⟨capeOf cape v0 v1 v2 v3 v4 v5 v6 v7 v8 v9 v10 v11 v12 v13 v14 v15, rfl, rfl, rfl, rfl, ?_⟩
  have hl : ((walks [] BinCape.default.dump).filterMap floatOf).length = 16 := by rw [walks_cape]; rfl
  unfold BinCape.fromBytestr
  simp only [hl, h]
  rw [fill_cape cape, load_cape]
  rfl

/-! ## Theorems -/

/-- **C04** (layout): the byte string has 128 bytes, number after number, with the highest byte first; only gains and offsets are in it, whatever the
units are. -/
theorem C04_layout (c : BinCape) (h : ∀ n ∈ BinCape.numbers c, n < 2 ^ 64) :
    c.toBytestr.length = 128 ∧ IsBytes c.toBytestr ∧ ∀ i < 16, (BinCape.numbers c)[i]? = some (doubleAt c.toBytestr i) := by
  have hu := unpack_pack (BinCape.numbers c) h
  rw [← toBytestr_eq] at hu
  have hl := (unpack_length hu).2
  refine ⟨hl, ?_, fun i hi => unpack_at hu i hi⟩
  intro b hb
  rw [toBytestr_eq] at hb
  obtain ⟨n, -, hn⟩ := List.mem_flatMap.mp hb
  simp only [packD, List.mem_cons, List.not_mem_nil, or_false] at hn
  omega

/-- **C04** (round trip): decoding the byte string of a calibration gives the same 16 numbers, bit for bit.  Units are the ones of the default, the host is not
set, the cape is the one passed along. -/
theorem C04_roundtrip (c : BinCape) (hc : ValidCape c) (cape : Option ℕ) :
    ∃ c', BinCape.fromBytestr c.toBytestr cape = .ok c' ∧ BinCape.numbers c' = BinCape.numbers c ∧ c'.cape = cape ∧ c'.host = none
      ∧ (BinCape.pairs c').map (·.unit) = [some "V", some "V", some "V", some "A", some "V", some "V", some "A", some "A"] := by
  have h : ∀ n ∈ BinCape.numbers c, n < 2 ^ 64 := by
    intro n hn
    obtain ⟨p, hp, hn⟩ := List.mem_flatMap.mp hn
    simp only [List.mem_cons, List.not_mem_nil, or_false] at hn
    rcases hn with rfl | rfl
    · exact (hc p hp).1.1
    · exact (hc p hp).2.1.1
  have hu := unpack_pack (BinCape.numbers c) h
  rw [← toBytestr_eq] at hu
  obtain ⟨c', hn, h1, h2, h3, h4⟩ := fromBytestr_eq (cape := cape) hu
  refine ⟨c', ?_, hn, h1, h2, h3⟩
  rw [h4, if_pos]
  have h' : ∀ n ∈ BinCape.numbers c', n < 2 ^ 64 := by rw [hn]; exact h
  rw [capeCheck_iff h']
  have e : (BinCape.pairs c').map (fun p => (p.gain, p.offset)) = (BinCape.pairs c).map (fun p => (p.gain, p.offset)) := by
    simp only [BinCape.numbers, BinCape.pairs, List.flatMap_cons, List.flatMap_nil, List.cons_append, List.nil_append, List.append_nil, List.cons.injEq, and_true] at hn
    simp [BinCape.pairs, hn]
  intro p hp
  have : (p.gain, p.offset) ∈ (BinCape.pairs c).map (fun p => (p.gain, p.offset)) := by rw [← e]; exact List.mem_map.mpr ⟨p, hp, rfl⟩
  obtain ⟨q, hq, he⟩ := List.mem_map.mp this
  simp only [Prod.mk.injEq] at he
  rw [← he.1, ← he.2]
  exact hc q hq

/-- **C04** (reverse round trip): encoding what was decoded from a byte string reproduces it. -/
theorem C04_reverse (data : List ℕ) (hb : IsBytes data) (cape : Option ℕ) (c : BinCape) (h : BinCape.fromBytestr data cape = .ok c) : c.toBytestr = data := by
  have hl : ((walks [] BinCape.default.dump).filterMap floatOf).length = 16 := by rw [walks_cape]; rfl
  cases hu : structUnpack 16 data with
  | error e => unfold BinCape.fromBytestr at h; simp only [hl, hu] at h; cases h
  | ok l =>
    obtain ⟨c', hn, -, -, -, h4⟩ := fromBytestr_eq (cape := cape) hu
    rw [h4] at h
    split at h
    · cases h
      rw [toBytestr_eq, hn]
      exact (pack_unpack hb hu).1
    · cases h

/-- **C04** (length): byte strings of any other length than 128 are rejected. -/
theorem C04_length (data : List ℕ) (cape : Option ℕ) (h : data.length ≠ 128) : BinCape.fromBytestr data cape = .error .structError := by
  have hl : ((walks [] BinCape.default.dump).filterMap floatOf).length = 16 := by rw [walks_cape]; rfl
  unfold BinCape.fromBytestr
  simp only [hl, unpack_error (n := 16) h]

/-- **C04** (accepted data): byte strings of the right length are accepted exactly if all numbers are finite and gains - every other number - are positive; all others
are rejected with a ValueError. -/
theorem C04_accepted (data : List ℕ) (hb : IsBytes data) (cape : Option ℕ) (hd : data.length = 128) :
    ((∃ c, BinCape.fromBytestr data cape = .ok c) ↔
      (∀ i < 16, IsFinite (doubleAt data i)) ∧ ∀ i < 8, 0 < doubleVal (doubleAt data (2 * i)))
    ∧ ((∃ c, BinCape.fromBytestr data cape = .ok c) ∨ BinCape.fromBytestr data cape = .error .valueError) := by
  obtain ⟨l, hu⟩ := unpack_ok (n := 16) (data := data) hd
  obtain ⟨c, hn, -, -, -, h4⟩ := fromBytestr_eq (cape := cape) hu
  have h64 := (pack_unpack hb hu).2
  have hat := unpack_at hu
  rw [← hn] at h64 hat
  have hck := capeCheck_iff h64
  rw [h4]
  refine ⟨?_, ?_⟩
  · have key : ValidCape c ↔ (∀ i < 16, IsFinite (doubleAt data i)) ∧ ∀ i < 8, 0 < doubleVal (doubleAt data (2 * i)) := by
      have a0 := hat 0 (by omega); have a1 := hat 1 (by omega); have a2 := hat 2 (by omega); have a3 := hat 3 (by omega)
      have a4 := hat 4 (by omega); have a5 := hat 5 (by omega); have a6 := hat 6 (by omega); have a7 := hat 7 (by omega)
      have a8 := hat 8 (by omega); have a9 := hat 9 (by omega); have a10 := hat 10 (by omega); have a11 := hat 11 (by omega)
      have a12 := hat 12 (by omega); have a13 := hat 13 (by omega); have a14 := hat 14 (by omega); have a15 := hat 15 (by omega)
      simp only [BinCape.numbers, BinCape.pairs, List.flatMap_cons, List.flatMap_nil, List.cons_append, List.nil_append, List.append_nil,
        List.getElem?_cons_succ, List.getElem?_cons_zero, Option.some.injEq] at a0 a1 a2 a3 a4 a5 a6 a7 a8 a9 a10 a11 a12 a13 a14 a15
      simp only [ValidCape, BinCape.pairs, List.mem_cons, List.not_mem_nil, or_false, forall_eq_or_imp, forall_eq, a0, a1, a2, a3, a4, a5, a6, a7, a8, a9, a10,
        a11, a12, a13, a14, a15]
      constructor
      · rintro ⟨⟨b0, b1, p0⟩, ⟨b2, b3, p1⟩, ⟨b4, b5, p2⟩, ⟨b6, b7, p3⟩, ⟨b8, b9, p4⟩, ⟨b10, b11, p5⟩, ⟨b12, b13, p6⟩, ⟨b14, b15, p7⟩⟩
        refine ⟨fun i hi => ?_, fun i hi => ?_⟩
        · interval_cases i <;> assumption
        · interval_cases i <;> assumption
      · rintro ⟨f, p⟩
        exact ⟨⟨f 0 (by omega), f 1 (by omega), p 0 (by omega)⟩, ⟨f 2 (by omega), f 3 (by omega), p 1 (by omega)⟩, ⟨f 4 (by omega), f 5 (by omega), p 2 (by omega)⟩,
          ⟨f 6 (by omega), f 7 (by omega), p 3 (by omega)⟩, ⟨f 8 (by omega), f 9 (by omega), p 4 (by omega)⟩, ⟨f 10 (by omega), f 11 (by omega), p 5 (by omega)⟩,
          ⟨f 12 (by omega), f 13 (by omega), p 6 (by omega)⟩, ⟨f 14 (by omega), f 15 (by omega), p 7 (by omega)⟩⟩
    rw [← key, ← hck]
    constructor
    · rintro ⟨c', h⟩
      by_contra hne
      rw [if_neg hne] at h; cases h
    · intro h; exact ⟨c, by rw [if_pos h]⟩
  · by_cases h : c.check = true
    · left; exact ⟨c, by rw [if_pos h]⟩
    · right; rw [if_neg h]

/-- **C04** (default): the bits used for the default calibration are the ones of the calibration that is computed from the formulas of the hardware. -/
theorem C04_default :
    let pair (p : BinPair) : CalPair := ⟨doubleVal p.gain, doubleVal p.offset⟩
    (BinCape.pairs BinCape.default).map (fun p => some (pair p)) =
      [defaultDac b64, defaultDac b64, defaultAdcV b64, defaultAdcC b64, defaultDac b64, defaultDac b64, defaultAdcC b64, defaultAdcC b64] := by
  decide +kernel

/-! ## Examples -/

/-- A calibration with measured values and units of its own. -/
def exCape : BinCape :=
  { BinCape.default with
    host := some "sheep0"
    cape := some 7
    harvester := { BinCape.default.harvester with dacVHrv := ⟨0x3F1A36E2EB1C432D, 0xBF50624DD2F1A9FC, some "mV"⟩ }
    emulator := { BinCape.default.emulator with adcCB := ⟨1, 0x7FEFFFFFFFFFFFFF, none⟩ } }

theorem exCape_valid : ValidCape exCape := by
  rw [← capeCheck_iff (by decide)]
  decide

example : (BinCape.fromBytestr exCape.toBytestr (some 3)).toOption.map BinCape.numbers = some (BinCape.numbers exCape) := by decide +kernel
/-- Units and host get lost. -/
example : (BinCape.fromBytestr exCape.toBytestr exCape.cape).toOption ≠ some exCape := by decide +kernel
example : IsBytes exCape.toBytestr := (C04_layout _ (by decide)).2.1
example : (exCape.toBytestr.take 9) = [0x3F, 0x1A, 0x36, 0xE2, 0xEB, 0x1C, 0x43, 0x2D, 0xBF] := by decide +kernel
example : BinCape.fromBytestr (exCape.toBytestr.take 127) none = .error .structError := C04_length _ _ (by decide +kernel)
/-- NaN as offset, zero as gain: rejected. -/
example : BinCape.fromBytestr (structPack ((BinCape.numbers exCape).set 1 0x7FF8000000000000)) none = .error .valueError := by decide +kernel
example : BinCape.fromBytestr (structPack ((BinCape.numbers exCape).set 2 0)) none = .error .valueError := by decide +kernel

end Verif.Props

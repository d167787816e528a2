import Verif.Model.Source
import Verif.Lemmas.Converter
import Verif.Lemmas.Harvester

namespace Verif.Model
open Verif.Py

variable {fl : ℚ → ℚ}

theorem srcStep_ok (c : SrcCfg) (s : SrcState) (x : Sample) (iOut : ℚ) {s' : SrcState} {o : SrcOut}
    (h : srcStep fl c s x iOut = .ok (s', o)) :
    ∃ co, cnvStep fl c.cnv c.cal s.cnv
        { v := (ivcurveSample fl c.hrv s.hrv x).2.v, i := (ivcurveSample fl c.hrv s.hrv x).2.i,
          adc := c.cal.adcCA.siToRaw fl (fl (iOut * fl (1 / 10^9))) } = .ok (s'.cnv, co) ∧
      (s'.hrv, (ivcurveSample fl c.hrv s.hrv x).2) = hrvStep fl c.hrv s.hrv
        { x with feedback := if c.cnv.feedbackToHrv then some s'.cnv.vInputRequest else none } ∧
      s'.wInp = fl (s.wInp + fl co.pInp) ∧ s'.wOut = fl (s.wOut + fl co.pOut) ∧
      o = { ret := if c.cnv.enableLogMid then co.vMid
              else pyInt (fl (c.cal.dacVA.rawToSi fl co.vOutRaw * 10^6)),
            powerGood := s'.cnv.powerGood, pInp := co.pInp, pOut := co.pOut, hrv := (ivcurveSample fl c.hrv s.hrv x).2 } := by
  unfold srcStep at h
  simp only at h
  match hc : cnvStep fl c.cnv c.cal s.cnv
        { v := (ivcurveSample fl c.hrv s.hrv x).2.v, i := (ivcurveSample fl c.hrv s.hrv x).2.i,
          adc := c.cal.adcCA.siToRaw fl (fl (iOut * fl (1 / 10^9))) } with
  | .error e => rw [hc] at h; cases h
  | .ok (cs, co) =>
    rw [hc] at h
    injection h with h
    injection h with h1 h2
    subst h1
    refine ⟨co, rfl, ?_, rfl, rfl, h2.symm⟩
    unfold hrvStep
    cases hf : c.cnv.feedbackToHrv <;> simp

theorem srcStep_total (c : SrcCfg) (hc : c.cnv.Valid) (s : SrcState) (x : Sample) (iOut : ℚ) :
    ∃ s' o, srcStep fl c s x iOut = .ok (s', o) := by
  obtain ⟨cs, co, h⟩ := cnvStep_total (fl := fl) c.cnv hc c.cal s.cnv
    { v := (ivcurveSample fl c.hrv s.hrv x).2.v, i := (ivcurveSample fl c.hrv s.hrv x).2.i,
      adc := c.cal.adcCA.siToRaw fl (fl (iOut * fl (1 / 10^9))) }
  unfold srcStep
  simp only
  rw [h]
  exact ⟨_, _, rfl⟩

theorem srcRun_cons (c : SrcCfg) (s : SrcState) (x : Sample × ℚ) (xs : List (Sample × ℚ))
    {s' : SrcState} {os : List SrcOut} (h : srcRun fl c s (x :: xs) = .ok (s', os)) :
    ∃ s1 o os1, srcStep fl c s x.1 x.2 = .ok (s1, o) ∧ srcRun fl c s1 xs = .ok (s', os1) ∧
      os = o :: os1 := by
  unfold srcRun at h
  match ha : srcStep fl c s x.1 x.2 with
  | .error e => rw [ha] at h; cases h
  | .ok (s1, o) =>
    rw [ha] at h
    change Except.bind (srcRun fl c s1 xs) _ = _ at h
    match hb : srcRun fl c s1 xs with
    | .error e => rw [hb] at h; cases h
    | .ok (s2, os1) =>
      rw [hb] at h
      injection h with h
      injection h with h1 h2
      exact ⟨s1, o, os1, rfl, by rw [hb, h1], h2.symm⟩

theorem srcRun_total (c : SrcCfg) (hc : c.cnv.Valid) :
    ∀ (xs : List (Sample × ℚ)) (s : SrcState), ∃ s' os, srcRun fl c s xs = .ok (s', os) ∧
      os.length = xs.length
  | [], s => ⟨s, [], rfl, rfl⟩
  | x :: xs, s => by
    obtain ⟨s1, o, h1⟩ := srcStep_total (fl := fl) c hc s x.1 x.2
    obtain ⟨s2, os, h2, hl⟩ := srcRun_total c hc xs s1
    refine ⟨s2, o :: os, ?_, by simp [hl]⟩
    unfold srcRun
    rw [h1]
    change Except.bind (srcRun fl c s1 xs) _ = _
    rw [h2]; rfl

/-- Invariants over the outputs so far. -/
theorem srcRun_inv (c : SrcCfg) (P : List SrcOut → SrcState → Prop)
    (hstep : ∀ os s x i s' o, P os s → srcStep fl c s x i = .ok (s', o) → P (os ++ [o]) s') :
    ∀ (xs : List (Sample × ℚ)) (os0 : List SrcOut) (s s' : SrcState) (os : List SrcOut), P os0 s →
      srcRun fl c s xs = .ok (s', os) → P (os0 ++ os) s'
  | [], os0, s, s', os, hp, h => by
    injection h with h
    injection h with h1 h2
    subst h1 h2; simpa using hp
  | x :: xs, os0, s, s', os, hp, h => by
    obtain ⟨s1, o, os1, ha, hb, rfl⟩ := srcRun_cons c s x xs h
    have := srcRun_inv c P hstep xs (os0 ++ [o]) s1 s' os1 (hstep os0 s x.1 x.2 s1 o hp ha) hb
    simpa using this

theorem srcRun_snoc (c : SrcCfg) (xs : List (Sample × ℚ)) (x : Sample × ℚ) (s0 s s' : SrcState)
    (os : List SrcOut) (o : SrcOut) (h : srcRun fl c s0 xs = .ok (s, os))
    (hs : srcStep fl c s x.1 x.2 = .ok (s', o)) :
    srcRun fl c s0 (xs ++ [x]) = .ok (s', os ++ [o]) := by
  induction xs generalizing s0 os with
  | nil =>
    injection h with h
    injection h with h1 h2
    subst h1 h2
    simp only [List.nil_append, srcRun]
    rw [hs]; rfl
  | cons y ys ih =>
    obtain ⟨s1, o1, os1, ha, hb, rfl⟩ := srcRun_cons c s0 y ys h
    have := ih s1 os1 hb
    simp only [List.cons_append, srcRun]
    rw [ha]
    change Except.bind (srcRun fl c s1 (ys ++ [x])) _ = _
    rw [this]; rfl

/-- A run of the source is a run of the harvester feeding a run of the converter. -/
theorem srcRun_refines (c : SrcCfg) : ∀ (xs : List (Sample × ℚ)) (s s' : SrcState) (os : List SrcOut),
    srcRun fl c s xs = .ok (s', os) →
    ∃ (hin : List HrvIn) (cin : List CnvIn) (co : List CnvOut),
      hin.map HrvIn.toSample = xs.map Prod.fst ∧
      hrvRun fl c.hrv s.hrv hin = (s'.hrv, os.map SrcOut.hrv) ∧
      cin = List.zipWith (fun (y : Sample) (x : Sample × ℚ) =>
        { v := (y.v : ℚ), i := (y.i : ℚ), adc := c.cal.adcCA.siToRaw fl (fl (x.2 * fl (1 / 10^9))) })
          (os.map SrcOut.hrv) xs ∧
      cnvRun fl c.cnv c.cal s.cnv cin = .ok (s'.cnv, co) ∧
      os.map SrcOut.pInp = co.map CnvOut.pInp ∧ os.map SrcOut.pOut = co.map CnvOut.pOut ∧
      os.map SrcOut.ret = co.map (fun o => if c.cnv.enableLogMid then o.vMid
        else pyInt (fl (c.cal.dacVA.rawToSi fl o.vOutRaw * 10^6))) ∧
      (c.cnv.feedbackToHrv = false → ∀ y ∈ hin, y.feedback = none)
  | [], s, s', os, h => by
    injection h with h
    injection h with h1 h2
    subst h1 h2
    exact ⟨[], [], [], rfl, rfl, rfl, rfl, rfl, rfl, rfl, by simp⟩
  | x :: xs, s, s', os, h => by
    obtain ⟨s1, o, os1, ha, hb, rfl⟩ := srcRun_cons c s x xs h
    obtain ⟨hin, cin, co, e1, e2, e3, e4, e5, e6, e7, e8⟩ := srcRun_refines c xs s1 s' os1 hb
    obtain ⟨co1, f1, f2, f3, f4, rfl⟩ := srcStep_ok c s x.1 x.2 ha
    refine ⟨{ x.1 with feedback := if c.cnv.feedbackToHrv then some s1.cnv.vInputRequest else none } :: hin,
      { v := (ivcurveSample fl c.hrv s.hrv x.1).2.v, i := (ivcurveSample fl c.hrv s.hrv x.1).2.i,
        adc := c.cal.adcCA.siToRaw fl (fl (x.2 * fl (1 / 10^9))) } :: cin, co1 :: co, ?_, ?_, ?_, ?_, ?_, ?_, ?_, ?_⟩
    · simp [e1]
    · unfold hrvRun; simp only [← f2, e2, List.map_cons]
    · simp [e3]
    · unfold cnvRun
      rw [f1]
      change Except.bind (cnvRun fl c.cnv c.cal s1.cnv cin) _ = _
      rw [e4]; rfl
    · simp [e5]
    · simp [e6]
    · simp [e7]
    · intro hf y hy
      rcases List.mem_cons.1 hy with rfl | hy
      · simp [hf]
      · exact e8 hf y hy

/-! Buffers of the simulations. -/

theorem simHrvBuffer_append (c : HrvCfg) (cal : CalSeries) : ∀ (xs ys : List RawSample) (s : HrvState),
    simHrvBuffer fl c cal s (xs ++ ys) =
      ((simHrvBuffer fl c cal (simHrvBuffer fl c cal s xs).1 ys).1,
       (simHrvBuffer fl c cal s xs).2 ++ (simHrvBuffer fl c cal (simHrvBuffer fl c cal s xs).1 ys).2)
  | [], ys, s => rfl
  | x :: xs, ys, s => by
    simp [simHrvBuffer, simHrvBuffer_append c cal xs ys]

theorem bufferEnergy_append (dt : ℚ) (xs ys : List (ℚ × ℚ)) :
    bufferEnergy dt (xs ++ ys) = bufferEnergy dt xs + bufferEnergy dt ys := by
  simp [bufferEnergy]; ring

theorem simHrv_flat (c : HrvCfg) (cal : CalSeries) (dt : ℚ) : ∀ (bs : List (List RawSample)) (s : HrvState) (e : ℚ),
    (simHrv fl c cal dt (s, e) bs).2.flatten = (simHrvBuffer fl c cal s bs.flatten).2 ∧
    (simHrv fl c cal dt (s, e) bs).1 = ((simHrvBuffer fl c cal s bs.flatten).1,
      e + bufferEnergy dt ((simHrvBuffer fl c cal s bs.flatten).2.map fun y => ((y.v : ℚ), (y.i : ℚ))))
  | [], s, e => by simp [simHrv, simHrvBuffer, bufferEnergy]
  | b :: bs, s, e => by
    obtain ⟨h1, h2⟩ := simHrv_flat c cal dt bs (simHrvBuffer fl c cal s b).1
      (e + bufferEnergy dt ((simHrvBuffer fl c cal s b).2.map fun y => ((y.v : ℚ), (y.i : ℚ))))
    rw [List.flatten_cons, simHrvBuffer_append]
    simp only [simHrv, List.flatten_cons, h1, h2, List.map_append, bufferEnergy_append]
    simp only [true_and, Prod.mk.injEq]
    ring

theorem simSrcBuffer_append (m : MathFns) (c : SrcCfg) (cal : CalSeries) (t : Target) :
    ∀ (xs ys : List RawSample) (s : SimState),
    simSrcBuffer fl m c cal t s (xs ++ ys) = do
      let (s, as) ← simSrcBuffer fl m c cal t s xs
      let (s, bs) ← simSrcBuffer fl m c cal t s ys
      return (s, as ++ bs)
  | [], ys, s => by
    change _ = Except.bind (simSrcBuffer fl m c cal t s ys) _
    match h : simSrcBuffer fl m c cal t s ys with
    | .error e => rfl
    | .ok (s, r) => rfl
  | x :: xs, ys, s => by
    simp only [List.cons_append, simSrcBuffer]
    match h : simSrcStep fl m c cal t s x with
    | .error e => rfl
    | .ok (s1, y) =>
      change Except.bind (simSrcBuffer fl m c cal t s1 (xs ++ ys)) _ = _
      rw [simSrcBuffer_append m c cal t xs ys s1]
      match h2 : simSrcBuffer fl m c cal t s1 xs with
      | .error e =>
        change Except.error e = Except.bind (Except.bind (simSrcBuffer fl m c cal t s1 xs) _) _
        rw [h2]; rfl
      | .ok (s2, as) =>
        change Except.bind (Except.bind (simSrcBuffer fl m c cal t s2 ys) _) _ =
          Except.bind (Except.bind (simSrcBuffer fl m c cal t s1 xs) _) _
        rw [h2]
        change _ = Except.bind (simSrcBuffer fl m c cal t s2 ys) _
        match h3 : simSrcBuffer fl m c cal t s2 ys with
        | .error e => rfl
        | .ok (s3, bs) => rfl

/-- Forget how the written samples were cut into buffers. -/
def flatResult {α β : Type} (r : Except PyErr (α × List (List β))) : Except PyErr (α × List β) :=
  r.map fun p => (p.1, p.2.flatten)

theorem simSrc_flat (m : MathFns) (c : SrcCfg) (cal : CalSeries) (t : Target) (dt : ℚ) :
    ∀ (bs : List (List RawSample)) (s : SimState) (e : ℚ),
    flatResult (simSrc fl m c cal t dt (s, e) bs) =
      (simSrcBuffer fl m c cal t s bs.flatten).map (fun p => ((p.1, e + bufferEnergy dt p.2), p.2))
  | [], s, e => by simp [simSrc, simSrcBuffer, flatResult, Except.map, bufferEnergy]
  | b :: bs, s, e => by
    rw [List.flatten_cons, simSrcBuffer_append]
    simp only [simSrc]
    match h : simSrcBuffer fl m c cal t s b with
    | .error er => rfl
    | .ok (s1, ys) =>
      have ih := simSrc_flat m c cal t dt bs s1 (e + bufferEnergy dt ys)
      change flatResult (Except.bind (simSrc fl m c cal t dt (s1, e + bufferEnergy dt ys) bs) _) =
        Except.map _ (Except.bind (simSrcBuffer fl m c cal t s1 bs.flatten) _)
      match h1 : simSrc fl m c cal t dt (s1, e + bufferEnergy dt ys) bs,
        h2 : simSrcBuffer fl m c cal t s1 bs.flatten with
      | .error e1, .error e2 => rw [h1, h2] at ih; exact ih
      | .ok r1, .error e2 => rw [h1, h2] at ih; cases ih
      | .error e1, .ok r2 => rw [h1, h2] at ih; cases ih
      | .ok r1, .ok r2 =>
        rw [h1, h2] at ih
        simp only [flatResult, Except.map, Except.ok.injEq, Prod.mk.injEq] at ih
        obtain ⟨ih1, ih2⟩ := ih
        change Except.ok _ = Except.ok _
        simp only [Except.ok.injEq, Prod.mk.injEq, List.flatten_cons, ih1, ih2, bufferEnergy_append]
        exact ⟨⟨trivial, by ring⟩, trivial⟩

end Verif.Model

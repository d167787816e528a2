import Verif.Model.Reports

/-!
# Generated recordings and energy environments

Models the scripts `extra/gen_energy_envs.py`, `shepherd_core/examples/eenv_generator.py` and `shepherd_data/examples/generate_sawtooth.py` on the files of `Model/Recorder`, and the part of
`EnergyEnvironment` they fill in (`shepherd_core/shepherd_core/data_models/content/energy_environment.py`).

Simplified: paths are left out (a recording and its metadata exist or not), and the descriptive fields.
-/

namespace Verif.Model
open Verif.Py

section
variable (fl : ℚ → ℚ)

/-- `np.arange(0.0, stop, step)` with a positive step (gen_energy_envs.py l.44): the length is the quotient rounded up, the elements are multiples of the step. -/
def npArange (stop step : ℚ) : List ℚ := (List.range ⌈fl (stop / step)⌉.toNat).map (fun i : ℕ => fl ((i : ℚ) * step))

/-- `np.linspace(start, stop, num)` (gen_energy_envs.py l.45-46, generate_sawtooth.py l.24-25); numpy divides first if the step underflows and sets the last element to `stop`. -/
def linspace (start stop : ℚ) (num : ℕ) : List ℚ :=
  let delta := fl (stop - start)
  let step := fl (delta / ((num - 1 : ℕ) : ℚ))
  (List.range num).map (fun i : ℕ =>
    if 1 < num ∧ i = num - 1 then stop
    else
      fl ((if 0 < num - 1 then (if step = 0 then fl (fl ((i : ℚ) / ((num - 1 : ℕ) : ℚ)) * delta) else fl ((i : ℚ) * step)) else fl ((i : ℚ) * delta)) + start))

/-- What a generator is told: values at the start and end of each repetition, the duration of one in seconds, the number of repetitions.  Used in extra/gen_energy_envs.py, eenv_generator.py, generate_sawtooth.py. -/
structure GenArgs where
  v0 : ℚ
  v1 : ℚ
  c0 : ℚ
  c1 : ℚ
  duration : ℕ
  repetitions : ℕ

/-- One repetition (gen_energy_envs.py l.48-50): `w` is the writer before the loop, its rate and interval are used. -/
def genBlock (w : Session) (a : GenArgs) (idx : ℕ) (s : Session) : Except PyErr Session :=
  let n := (w.stats.samplerate * (a.duration : ℤ)).toNat
  let ts := (npArange fl (a.duration : ℚ) (fl ((w.stats.intervalNs : ℚ) / 10^9))).map (fun x => fl (fl (((idx * a.duration : ℕ) : ℚ)) + x))
  s.appendSi fl (.array ts) (linspace fl a.v0 a.v1 n) (linspace fl a.c0 a.c1 n)

/-- The repetitions `idxs` in order (gen_energy_envs.py l.48-50). -/
def genBlocks (w : Session) (a : GenArgs) : List ℕ → Session → Except PyErr Session
  | [], s => .ok s
  | i :: l, s =>
    match genBlock fl w a i s with
    | .error e => .error e
    | .ok s' => genBlocks w a l s'

/-- The recording that is left if the first `k` repetitions are made (gen_energy_envs.py l.40-50; an interruption from the keyboard still closes the file). -/
def genRecording (a : GenArgs) (k : ℕ) : Except PyErr H5File :=
  match (writerOpen fl none {}).2 with
  | .error e => .error e
  | .ok w =>
    let w := w.storeHostname "artificial"
    match genBlocks fl w a (List.range k) w with
    | .error e => .error e
    | .ok s => s.close fl

/-- The fields of an `EnergyEnvironment` that describe its recording (energy_environment.py l.29-36). -/
structure EnvMeta where
  dataType : EnergyDType
  duration : ℚ
  energyWs : ℚ
  valid : Bool
deriving DecidableEq, Repr

/-- `PositiveFloat` for duration and energy (energy_environment.py l.34-35). -/
def EnvMeta.make (m : EnvMeta) : Except PyErr EnvMeta := if 0 < m.duration ∧ 0 < m.energyWs then .ok m else .error .valueError

/-- The metadata of a recording (gen_energy_envs.py l.56-72). -/
def genMeta (npSum : List ℚ → ℚ) (k : ℕ) (a : GenArgs) (f : H5File) : Except PyErr EnvMeta :=
  match openSession fl f with
  | .error e => .error e
  | .ok s =>
    EnvMeta.make { dataType := .ivsample, duration := ((a.duration * a.repetitions : ℕ) : ℚ), energyWs := s.energy fl npSum k, valid := true }

/-- One environment of the script (gen_energy_envs.py l.32-72): existing files are not made again. -/
def genEnv (npSum : List ℚ → ℚ) (k : ℕ) (a : GenArgs) (rec_ : Option H5File) (meta_ : Option EnvMeta) : Except PyErr (H5File × EnvMeta) :=
  match (match rec_ with | some f => Except.ok f | none => genRecording fl a a.repetitions) with
  | .error e => .error e
  | .ok f =>
    match meta_ with
    | some m => .ok (f, m)
    | none =>
      match genMeta fl npSum k a f with
      | .error e => .error e
      | .ok m => .ok (f, m)

end
end Verif.Model

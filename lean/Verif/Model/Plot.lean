import Verif.Model.CutFile

/-!
# Data for plots

Models `shepherd_data/shepherd_data/reader.py` l.457-509 (`generate_plot_data`) and l.558-594 (`plot_to_file`).

The drawing itself is not modelled: a picture is the data it was made from.
-/

namespace Verif.Model
open Verif.Py

section
variable (fl : ℚ → ℚ)

/-- The result of `generate_plot_data`.  Used in shepherd_data/reader.py l.457-509. -/
structure PlotData where
  start : ℚ
  stop : ℚ
  time : List ℚ
  voltage : List ℚ
  current : List ℚ
deriving DecidableEq

/-- The rate for a plot (reader.py l.484): four million samples over the range, rounded to three digits. -/
def plotRate (a b : ℚ) : ℚ := max (fl ((pyRound (1000 * fl (4000000 / fl (b - a))) : ℚ) / 1000)) (fl (1 / 1000))

/-- The factor for the down-sampling (reader.py l.485), `floor`ed as in l.194. -/
def Session.plotFactor (s : Session) (a b : ℚ) : ℕ := ⌊fl ((s.stats.samplerate : ℚ) / plotRate fl a b)⌋.toNat

variable {σ : Type} (f : SampleFilter ℚ σ)

/-- One series as array of floats (reader.py l.488-503), before the calibration.  Without samples the result is `None`, which has no calibrated values. -/
def Session.plotSeries (s : Session) (n : DsName) (a b : ℤ) (factor : ℕ) : Except PyErr (List ℚ) :=
  if (dsSlice (s.get n) a.toNat b.toNat).length = 0 then .error .typeError
  else downsample fl 0 f false (n = .time) 4000000 ((s.get n).map (fun x : ℤ => fl x)) [] a.toNat (some b.toNat) factor

/-- `generate_plot_data` (reader.py l.457-509). -/
def Session.plotData (s : Session) (start stop : Option ℚ) (relative : Bool) : Except PyErr (Option PlotData) :=
  let a := cutStart start
  let b := s.cutEnd fl stop
  let i := s.sampleAt fl a
  let j := s.sampleAt fl b
  if j - i < 5 then .ok none
  else
    let k := s.plotFactor fl a b
    match s.plotSeries fl f .time i j k with
    | .error e => .error e
    | .ok t =>
      match s.plotSeries fl f .voltage i j k with
      | .error e => .error e
      | .ok v =>
        match s.plotSeries fl f .current i j k with
        | .error e => .error e
        | .ok c =>
          let ts := s.cal.time.rawToSiArr fl t
          .ok (some ⟨a, b, if relative then ts.map (fun x => fl (x - s.cal.time.rawToSi fl ((s.get .time).getD 0 0))) else ts,
            s.cal.voltage.rawToSiArr fl v, s.cal.current.rawToSiArr fl c⟩)

/-- `plot_to_file` (reader.py l.558-594) for pictures by name, each with the data it shows; `stem` is the path of the source without its last suffix. -/
def Session.plotToFile (s : Session) (pics : String → Option PlotData) (stem : String) (start stop : Option ℚ) : (String → Option PlotData) × Except PyErr Unit :=
  match s.plotData fl f start stop true with
  | .error e => (pics, .error e)
  | .ok none => (pics, .ok ())
  | .ok (some d) =>
    let path := stem ++ ".plot_" ++ secStr d.start ++ "_to_" ++ secStr d.stop ++ ".png"
    if (pics path).isSome then (pics, .ok ()) else (fun p => if p = path then some d else pics p, .ok ())

end
end Verif.Model

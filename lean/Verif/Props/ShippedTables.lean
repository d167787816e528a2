import Verif.Model.ShippedSrc
import Verif.Props.Fixtures

/-!
# C96: the virtual sources and harvesters that come with the library, what the files say
-/

namespace Verif.Props
open Verif.Py Verif.Model

/-! ## Specification -/

/-- The harvesters, with all settings that differ from the defaults. -/
def harvesters : List VhrvRaw :=
  let sweep (name : String) (n : ℤ) : VhrvRaw := { name, algorithm := .ivcurve, samplesN := n, rising := false, waitCycles := 0 }
  let voc (name : String) (set interval duration : ℚ) : VhrvRaw := { name, algorithm := .mpptVoc, setpointN := set, interval, duration, currentLimit := 5 }
  [sweep "ivcurve" 909, sweep "ivcurves" 909, sweep "iv110" 909, sweep "iv1000" 100, { name := "isc_voc", algorithm := .iscVoc, waitCycles := 4 },
   { name := "cv20", algorithm := .cv, voltage := 2000 }, { name := "cv24", algorithm := .cv, voltage := 2400 }, { name := "cv33", algorithm := .cv, voltage := 3300 },
   { name := "cv10", algorithm := .cv, voltage := 1000 }, voc "mppt_voc" (76/100) 100 (12/10), voc "mppt_bq" (76/100) 16000 256, voc "mppt_bqt" (50/100) 16000 256,
   voc "mppt_bq_solar" (76/100) 16000 256, voc "mppt_bq_thermoelectric" (50/100) 16000 256, { name := "mppt_po", algorithm := .mpptPo, voltageStep := some 10, interval := 18 },
   { name := "mppt_opt", algorithm := .mpptOpt, voltageStep := some 1, interval := 1/100 }, { name := "direct", algorithm := .neutral }]

/-- A diode and a capacitor. -/
def diodeCap : VsrcRaw :=
  { vInputDrop := 300, cIntermediate := 47, harvester := "cv20", enableFeedbackToHrv := true, vEnable := 2000, vDisable := 1800 }

/-- A boost converter with its storage. -/
def boostChip : VsrcRaw :=
  { enableBoost := true, harvester := "mppt_bq_solar", vInputMax := 3000, iInputMax := 100, cIntermediate := 100, iIntermediateLeak := 330, vEnable := 1000, vDisable := 0
    intervalCheckThresholds := 64, vPwrGoodEnable := 2800, vPwrGoodDisable := 2340, immediatePwrGoodSignal := false, vInputBoost := 130, vIntermediateMax := 3600
    lutInput := chipInput.map fun l => l.map fun n => (n : ℚ) / 100, lutInputVMin := 17, lutInputIMin := 13 }

/-- A boost converter, its storage and a buck converter. -/
def boostBuckChip : VsrcRaw :=
  { boostChip with
    enableBuck := true, vInputMax := 5100, cIntermediate := 33, vIntermediateInit := 3400, iIntermediateLeak := 0, vEnable := 3000, vDisable := 2400, vPwrGoodEnable := 3000
    vPwrGoodDisable := 2500, vInputBoost := 100, vIntermediateMax := 5500, vOutput := 2200, vBuckDrop := 200, lutOutput := chipOutput.map fun n => (n : ℚ) / 100, lutOutputIMin := 10 }

/-- The sources, with all settings that differ from the defaults. -/
def sources : List (String × VsrcRaw) :=
  [("neutral", {}), ("direct", { harvester := "direct" }), ("diode+capacitor", diodeCap), ("dio_cap", diodeCap), ("diode+resistor+capacitor", { diodeCap with rInput := 10000 }),
   ("dio_res_cap", { diodeCap with rInput := 10000 }), ("BQ25504", boostChip), ("BQ25504s", { boostChip with immediatePwrGoodSignal := true }),
   ("BQ25504-Schmitt", { boostChip with immediatePwrGoodSignal := true }), ("BQ25570", boostBuckChip), ("BQ25570s", { boostBuckChip with immediatePwrGoodSignal := true }),
   ("BQ25570-Schmitt", { boostBuckChip with immediatePwrGoodSignal := true }), ("default", { boostBuckChip with immediatePwrGoodSignal := true })]

/-- Numbers of the harvesters. -/
def harvesterIds : List (ℤ × String) :=
  [(1100, "ivcurve"), (1101, "ivcurves"), (1103, "iv110"), (1102, "iv1000"), (1200, "isc_voc"), (2100, "cv20"), (2101, "cv24"), (2102, "cv33"), (2102, "cv10"), (2200, "mppt_voc"),
   (2201, "mppt_bq"), (2202, "mppt_bqt"), (2203, "mppt_bq_solar"), (2204, "mppt_bq_thermoelectric"), (2205, "mppt_po"), (2206, "mppt_opt"), (3000, "direct")]

/-- Numbers of the sources. -/
def sourceIds : List (ℤ × String) :=
  [(1000, "neutral"), (1010, "direct"), (1011, "diode+capacitor"), (1012, "dio_cap"), (1013, "diode+resistor+capacitor"), (1014, "dio_res_cap"), (1020, "BQ25504"), (1021, "BQ25504s"),
   (1022, "BQ25504-Schmitt"), (1030, "BQ25570"), (1031, "BQ25570s"), (1032, "BQ25570-Schmitt"), (1033, "default")]

/-! ## Evaluation of the files in the kernel -/

/-- The data base of one kind. -/
def dbKind (model : String) : FixtureDb := match loadAll model .empty contentFiles with | .ok db => db | .error _ => .empty

theorem load_kind : (loadAll "VirtualHarvesterConfig" .empty contentFiles).isOk = true ∧ (loadAll "VirtualSourceConfig" .empty contentFiles).isOk = true := by decide +kernel

theorem eval_harvesters : ∀ r ∈ harvesters, (byNameIn "VirtualHarvesterConfig" contentFiles r.name >>= parseVhrv).toOption = some r := by decide +kernel

theorem eval_neutral : (byNameIn "VirtualHarvesterConfig" contentFiles "neutral" >>= parseVhrv).toOption = none ∧
    (match byNameIn "VirtualHarvesterConfig" contentFiles "neutral" >>= parseVhrv with | .error e => decide (e = .valueError) | .ok _ => false) = true := by decide +kernel

theorem eval_neutral_id : (match byIdIn "VirtualHarvesterConfig" contentFiles 1000 >>= parseVhrv with | .error e => decide (e = .valueError) | .ok _ => false) = true := by decide +kernel

theorem eval_sources : ∀ s ∈ sources, (byNameIn "VirtualSourceConfig" contentFiles s.1 >>= parseVsrc).toOption = some s.2 := by decide +kernel

theorem eval_harvester_ids : ∀ s ∈ harvesterIds, s ≠ (2102, "cv33") →
    (byIdIn "VirtualHarvesterConfig" contentFiles s.1 >>= parseVhrv).toOption = (byNameIn "VirtualHarvesterConfig" contentFiles s.2 >>= parseVhrv).toOption := by decide +kernel

theorem eval_source_ids : ∀ s ∈ sourceIds, (byIdIn "VirtualSourceConfig" contentFiles s.1 >>= parseVsrc).toOption = (byNameIn "VirtualSourceConfig" contentFiles s.2 >>= parseVsrc).toOption := by
  decide +kernel

theorem eval_keys : (dbKind "VirtualHarvesterConfig").byName.map Prod.fst = "neutral" :: harvesters.map (·.name) ∧
    (∀ k ∈ (dbKind "VirtualHarvesterConfig").byId.map Prod.fst, k ∈ Val.int 1000 :: harvesterIds.map fun s => Val.int s.1) ∧
    (dbKind "VirtualSourceConfig").byName.map Prod.fst = sources.map (fun s => asciiOps.lower s.1) ∧
    (dbKind "VirtualSourceConfig").byId.map Prod.fst = sourceIds.map fun s => Val.int s.1 := by decide +kernel

end Verif.Props

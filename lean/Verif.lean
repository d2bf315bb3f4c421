import Verif.Props.StatusVoltage
import Verif.Props.Interp
import Verif.Props.ECM
import Verif.Props.Series
import Verif.Props.Tree
import Verif.Props.Parallel
import Verif.Props.ParallelEq
import Verif.Lemmas.Cycler
import Verif.Lemmas.Frame
import Verif.Props.Frame
import Verif.Props.Cycler
import Verif.Props.CyclerLimits
import Verif.Props.CyclerCV
import Verif.Props.CapacityTest
import Verif.Props.Containers
import Verif.Props.Run
import Verif.Props.Converter
import Verif.Props.Cooling
import Verif.Props.Battery
import Verif.Props.DegId
import Verif.Props.Structure
import Verif.Props.Cached
import Verif.Props.ContactHeat
import Verif.Props.Thermal
import Verif.Props.CoolMeters
import Verif.Props.DataStorage
import Verif.Props.Procedure
import Verif.Props.SetVoltage
import Verif.Props.BatteryBuild
import Verif.Props.Cholesky
import Verif.Props.Csv
import Verif.Model.SPM
import Verif.Spec.SPM
import Verif.Lemmas.SPM
import Verif.Lemmas.SPMAge
import Verif.Lemmas.SPMDiff
import Verif.Lemmas.SPMScale
import Verif.Props.SPM
import Verif.Props.SPMAge
import Verif.Props.SPMDiff
import Verif.Props.Dai
import Verif.Props.OcvFit
import Verif.Props.OcvWitness
import Verif.Props.OcvSim
import Verif.Props.CycleNumbers
import Verif.Props.UseCase
import Verif.Props.Balance
import Verif.Props.CheckUp
import Verif.Model.DefaultCell
import Verif.Spec.DefaultCell
import Verif.Lemmas.Polygon
import Verif.Lemmas.DefaultCell
import Verif.Props.DefaultCell
import Verif.Spec.Rest
import Verif.Lemmas.Rest
import Verif.Props.Rest
import Verif.Spec.SpmHeat
import Verif.Props.SpmHeat
import Verif.Model.Pack
import Verif.Spec.Pack
import Verif.Lemmas.Pack
import Verif.Lemmas.PackReads
import Verif.Props.Pack
import Verif.Model.CoolFan
import Verif.Spec.CoolFan
import Verif.Props.CoolFan
import Verif.Model.CoolData
import Verif.Spec.CoolData
import Verif.Props.CoolData
import Verif.Model.ModuleData
import Verif.Spec.ModuleData
import Verif.Props.ModuleData
import Verif.Model.MCMC
import Verif.Spec.MCMC
import Verif.Props.MCMC
import Verif.Model.SpmVoltage
import Verif.Spec.SpmUse
import Verif.Props.SpmUse
import Verif.Model.SpmUnit
import Verif.Spec.SpmUnit
import Verif.Lemmas.SpmUnit
import Verif.Props.SpmUnit
import Verif.Spec.SpmCycler
import Verif.Lemmas.SpmCycler
import Verif.Props.SpmCycler
import Verif.Spec.SpmAged
import Verif.Lemmas.SpmAged
import Verif.Props.SpmAged
import Verif.Model.GammaPrior
import Verif.Spec.GammaPrior
import Verif.Props.GammaPrior
import Verif.Spec.SpmFail
import Verif.Lemmas.SpmFail
import Verif.Props.SpmFail
import Verif.Model.ThermalCell
import Verif.Spec.ThermalCell
import Verif.Props.ThermalCell
import Verif.Model.Study
import Verif.Spec.Study
import Verif.Lemmas.Study
import Verif.Props.Study
import Verif.Spec.Lithium
import Verif.Lemmas.Lithium
import Verif.Props.Lithium
import Verif.Spec.Driven
import Verif.Lemmas.Driven
import Verif.Props.Driven
import Verif.Spec.Restore
import Verif.Props.Restore
import Verif.Model.OcvEstimate
import Verif.Spec.OcvEstimate
import Verif.Props.OcvEstimate
import Verif.Model.Recording
import Verif.Spec.Recording
import Verif.Props.Recording
import Verif.Props.BatteryFan
import Verif.Spec.Reference
import Verif.Lemmas.Reference
import Verif.Lemmas.Reference2
import Verif.Props.Reference
import Verif.Spec.SideReactions
import Verif.Props.SideReactions
import Verif.Spec.AgeingLaws
import Verif.Lemmas.AgeingLaws
import Verif.Props.AgeingLaws
import Verif.Props.AgeingFactors
import Verif.Props.Cracks
import Verif.Spec.CyclerRecords
import Verif.Lemmas.CyclerRecords
import Verif.Props.CyclerRecords
import Verif.Spec.Fick
import Verif.Props.Fick
import Verif.Spec.ThermalClock
import Verif.Props.ThermalClock
import Verif.Spec.ConverterSheet
import Verif.Props.ConverterSheet
import Verif.Spec.Kinetics
import Verif.Props.Kinetics
import Verif.Spec.StepAccuracy
import Verif.Lemmas.Euler
import Verif.Props.StepAccuracy
import Verif.Spec.Multiply
import Verif.Props.Multiply
import Verif.Spec.Energy
import Verif.Props.Energy
import Verif.Spec.CapacityMeasured
import Verif.Props.CapacityMeasured
import Verif.Spec.RateCapability
import Verif.Props.RateCapability
import Verif.Model.EcmNew
import Verif.Spec.EcmNew
import Verif.Props.EcmNew
import Verif.Spec.PowerBalance
import Verif.Props.PowerBalance
import Verif.Spec.Unselected
import Verif.Spec.Guarded
import Verif.Lemmas.Guarded
import Verif.Props.Guarded
import Verif.Props.Unselected
import Verif.Spec.UniformPack
import Verif.Lemmas.UniformPack
import Verif.Props.UniformPack
import Verif.Spec.StringOfCopies
import Verif.Props.StringOfCopies
import Verif.Spec.SetSOC
import Verif.Props.SetSOC
import Verif.Props.StringCapacity
import Verif.Spec.PackCycle
import Verif.Lemmas.PackCycle
import Verif.Props.PackCycle
import Verif.Spec.ChargeChecked
import Verif.Props.ChargeChecked
import Verif.Props.CVGuarded
import Verif.Spec.CVSettles
import Verif.Props.CVSettles
import Verif.Props.CCCVFills
import Verif.Props.NoTimeLeft
import Verif.Spec.WeakerCell
import Verif.Props.WeakerCell
import Verif.Spec.ParallelBalance
import Verif.Props.ParallelBalance
import Verif.Spec.ScaledCell
import Verif.Props.ScaledCell
import Verif.Lemmas.SizeMap
import Verif.Spec.LargerPack
import Verif.Lemmas.LargerPack
import Verif.Lemmas.LargerSpm
import Verif.Props.LargerPack
import Verif.Spec.LargerAged
import Verif.Spec.LargerAgedUnit
import Verif.Lemmas.LargerAged
import Verif.Props.LargerAged
import Verif.Spec.ReportedEnergy
import Verif.Lemmas.ReportedEnergy
import Verif.Lemmas.StoreUnits
import Verif.Props.ReportedEnergy
import Verif.Spec.WeakestCell
import Verif.Props.WeakestCell
import Verif.Spec.Circuit
import Verif.Props.Circuit
import Verif.Spec.Equalise
import Verif.Lemmas.Equalise
import Verif.Props.Equalise
import Verif.Spec.Phases
import Verif.Lemmas.Phases
import Verif.Props.Phases
import Verif.Spec.Rearrange
import Verif.Lemmas.Rearrange
import Verif.Props.Rearrange
import Verif.Spec.Interrupt
import Verif.Lemmas.Interrupt
import Verif.Props.Interrupt
import Verif.Props.EqualiseStrings
import Verif.Props.Warmer
import Verif.Props.EvenOut
import Verif.Props.SafeCalls
import Verif.Props.EvenHistory
import Verif.Props.StateStorage
import Verif.Props.Isothermal
import Verif.Props.QuietRuns
import Verif.Props.BatteryIsothermal
import Verif.Props.Overheat
import Verif.Props.BatteryOverheat
import Verif.Props.DecayRate

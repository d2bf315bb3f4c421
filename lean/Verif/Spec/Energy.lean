import Verif.Model.ECM
import Mathlib.MeasureTheory.Integral.IntervalIntegral.Basic

/-!
# Specification: no cell gives back more energy than it got (C132)
-/

namespace Slide.Spec

variable {n : ℕ}

/-- The increase of a meter over a history of calls, counting only the calls made while the current is as asked. -/
def counted (sel : ℚ → Bool) (meter : ECM n → ℚ) : ECM n → List ECM.Op → ℚ
  | _, [] => 0
  | c, o :: os => (if sel c.st.I then meter (c.apply o) - meter c else 0) + counted sel meter (c.apply o) os

/-- Watt hours and ampere hours that left the cell, and that went into it. -/
def whOut : ECM n → List ECM.Op → ℚ := counted (fun i => 0 < i) (fun c => c.st.Wh)
def whIn : ECM n → List ECM.Op → ℚ := counted (fun i => i < 0) (fun c => c.st.Wh)
def ahOut : ECM n → List ECM.Op → ℚ := counted (fun i => 0 < i) (fun c => c.st.Ah)
def ahIn : ECM n → List ECM.Op → ℚ := counted (fun i => i < 0) (fun c => c.st.Ah)

/-- Watt hours turned into heat in the DC resistance: resistance times square of the current times duration. -/
def dcHeat : ECM n → List ECM.Op → ℚ
  | _, [] => 0
  | c, o :: os => c.par.Rdc * c.st.I ^ 2 * ((c.apply o).st.time - c.st.time) / 3600 + dcHeat (c.apply o) os

/-- The open-circuit voltage is known from 0 to 100 % and does not fall with the state of charge; the capacity is
positive, resistances are not negative, time constants are positive. -/
structure PassiveCell (p : ECMPar n) : Prop where
  known : ∀ z, 0 ≤ z → z ≤ 1 → ∃ v, p.ocv z = some v
  rising : ∀ y z v w, 0 ≤ y → y ≤ z → z ≤ 1 → p.ocv y = some v → p.ocv z = some w → v ≤ w
  cap : 0 < p.cap
  Rdc : 0 ≤ p.Rdc
  Rp : ∀ i, 0 ≤ p.Rp i
  tau : ∀ i, 0 < p.invTau i

/-- The calls keep the cell between empty and full and its voltage from becoming negative, with time steps of at most
twice the time constants. -/
def StaysInside : ECM n → List ECM.Op → Prop
  | _, [] => True
  | c, o :: os =>
    (∀ dt k, o = .step dt k → (∀ i, dt * c.par.invTau i ≤ 2) ∧
      ∀ j ≤ k, let d := (c.timeStep dt j).2; 0 ≤ d.st.SOC ∧ d.st.SOC ≤ 1 ∧ 0 ≤ d.V) ∧
    StaysInside (c.apply o) os

/-- A rising curve through the known open-circuit voltages. -/
structure OcvThrough (p : ECMPar n) (f : ℝ → ℝ) : Prop where
  mono : Monotone f
  through : ∀ z v, 0 ≤ z → z ≤ 1 → p.ocv z = some v → f z = v

/-- Energy in a cell in watt hours: the open-circuit voltage integrated over the charge, and the energy in the
capacitors of the RC pairs (capacity `tau / Rp`, voltage `Rp Ir`). -/
noncomputable def cellEnergy (f : ℝ → ℝ) (c : ECM n) : ℝ :=
  c.par.cap * (∫ z in (0 : ℝ)..c.st.SOC, f z) + ∑ i, (c.par.Rp i * c.st.Ir i ^ 2 / (2 * c.par.invTau i) / 3600 : ℚ)

end Slide.Spec

import Verif.Sgd.AnySpec
import Verif.Grad.Model

/-!
The nine methods of the library (`grad_works_f` `nntl/grad_works/grad_works.h`, `GradType`) as in textbooks: with or without momentum or Nesterov's momentum, individual
gains and penalties, weight by weight.
-/
namespace Nntl.Sgd

open Nntl.Grad (GradType)

/-- What is kept for a weight: the number of steps, two running numbers, the velocity, the gain, and the previous step of the method. -/
structure Memo where
  n : ℕ
  a : ℝ
  b : ℝ
  v : ℝ
  gain : ℝ
  prev : ℝ

/-- The numbers of a method: learning rate, decays, the small constant, and the share of the present derivative (of `RAdam`). -/
structure Numbers where
  η : ℝ
  β1 : ℝ
  β2 : ℝ
  ε : ℝ
  γ : ℝ

/-- One step of a method in which `n` steps were made and `a`, `b` are the running numbers: the new running numbers and the step, given the derivative `g`.
`RMSProp` and `ModProp` begin with a plain step. Nesterov's variant of Adam (`Nadam`) uses the derivative twice; `RAdam` takes the share `γ` of it, and is `Nadam` if
`γ = 0`. -/
noncomputable def method (ty : GradType) (q : Numbers) (n : ℕ) (a b g : ℝ) : (ℝ × ℝ) × ℝ :=
  match ty with
  | .classicalConstant => ((a, b), q.η * g)
  | .rprop => ((a, b), if 0 < g then q.η else if g < 0 then -q.η else 0)
  | .rmsHinton =>
    if n = 0 then ((g ^ 2, b), q.η * g)
    else
      let a := q.β1 * a + (1 - q.β1) * g ^ 2
      ((a, b), q.η * g / (Real.sqrt a + q.ε))
  | .rmsGraves =>
    if n = 0 then ((g ^ 2, g), q.η * g)
    else
      let a := q.β1 * a + (1 - q.β1) * g ^ 2
      let b := q.β1 * b + (1 - q.β1) * g
      ((a, b), q.η * g / Real.sqrt (a - b ^ 2 + q.ε))
  | .modprop =>
    if n = 0 then ((|g|, b), q.η * g)
    else
      let a := q.β1 * a + (1 - q.β1) * |g|
      ((a, b), q.η * g / (a + q.ε))
  | .adam =>
    let a := q.β1 * a + (1 - q.β1) * g
    let b := q.β2 * b + (1 - q.β2) * g ^ 2
    ((a, b), q.η * Real.sqrt (1 - q.β2 ^ (n + 1)) / (1 - q.β1 ^ (n + 1)) * a / (Real.sqrt b + q.ε))
  | .adamax =>
    let a := q.β1 * a + (1 - q.β1) * g
    let b := max (q.β2 * b) |g|
    ((a, b), q.η / (1 - q.β1 ^ (n + 1)) * a / (b + q.ε))
  | .nadam => nadam 0
  | .radam => nadam q.γ
where
  /-- The running means are corrected as they are made. -/
  nadam (γ : ℝ) : (ℝ × ℝ) × ℝ :=
    let c := (q.β1 - q.β1 ^ (n + 1)) / (1 - q.β1 ^ (n + 1))
    let e := (q.β2 - q.β2 ^ (n + 1)) / (1 - q.β2 ^ (n + 1))
    let a := c * a + (1 - c) * g
    let b := e * b + (1 - e) * g ^ 2
    ((a, b), q.η * ((if γ = 0 then q.β1 * ((1 - q.β1 ^ (n + 1)) / (1 - q.β1 ^ (n + 2))) * a + (1 - c) * g else (1 - γ) * a + γ * g) / (Real.sqrt b + q.ε)))

/-- Momentum. -/
inductive Momentum
  | off
  | classical (μ : ℝ)
  | nesterov (μ : ℝ)

/-- Gains: a gain below `high` is multiplied by `up` when the step has the sign of what it is compared with, a gain above `low` by `down` when it has the opposite
sign. -/
structure Gains where
  byVelocity : Bool
  down : ℝ
  up : ℝ
  low : ℝ
  high : ℝ

/-- The new gain, for the product `p` of the step with what it is compared with. -/
noncomputable def Gains.next (G : Gains) (gain p : ℝ) : ℝ :=
  if 0 < p ∧ gain < G.high then gain * G.up else if p < 0 ∧ G.low < gain then gain * G.down else gain

/-- One step for a weight: the derivative is taken at `w`, or, with Nesterov's momentum, where the velocity would bring it; the derivative of the penalty there is added;
the method makes a step of it; gains, if they are used, are compared and scale it, but not in the first step; the step is subtracted from the weight, or added to the
velocity, which is. -/
noncomputable def fullRule (ty : GradType) (q : Numbers) (mm : Momentum) (G : Option Gains) (pen : ℝ → ℝ) : Rule Memo :=
  let at_ := fun (s : Memo) (w : ℝ) => match mm with
    | .nesterov μ => w - μ * s.v
    | _ => w
  let v := fun (s : Memo) => match mm with
    | .nesterov μ => μ * s.v
    | _ => s.v
  ⟨at_, fun s w d =>
    let x := method ty q s.n s.a s.b (d + pen (at_ s w))
    let gain := match G with
      | none => s.gain
      | some G => if s.n = 0 then s.gain else G.next s.gain ((if G.byVelocity then v s else s.prev) * x.2)
    let y := match G with
      | none => x.2
      | some _ => if s.n = 0 then x.2 else x.2 * gain
    let prev := match G with
      | none => s.prev
      | some G => if G.byVelocity then s.prev else y
    let v' := match mm with
      | .off => s.v
      | .classical μ => μ * s.v + y
      | .nesterov μ => μ * s.v + y
    (⟨s.n + 1, x.1.1, x.1.2, v', gain, prev⟩, match mm with
      | .off => w - y
      | _ => w - v')⟩

end Nntl.Sgd

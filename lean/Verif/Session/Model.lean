import Verif.Train.Model
/-!
Model of the life of a network object between the calls of its public functions: initialisation for inference and for training,
forward passes, evaluation, deinitialisation.
Source: /repo/nntl/nnet.h (253-413, 477-515, 523-676, 681-729), common_nn_data.h:115-165, errors.h:70-89,
interface/math/smath.h:207-246, layer/_activation_storage.h:83-156, grad_works/grad_works.h:283-337.

Built on `Train.CD`/`Train.Net` (batch sizes, mode, the request for reinitialisation). Added here: what the layers were told and for
which batch size they hold memory, scratch memory of the math object, how often the state of the optimisers was created, the last
error. A violated assertion is `none`. Simplified: the layers are one object; values of activations and weights are not modelled
(Pass, Calls); what the environment decides (which initialisation fails, how much scratch memory is asked for) is `Outcome`.
-/
namespace Nntl.Session
open Nntl.Train (CD Net)

/-- Error codes of `_nnet_errs.h` as far as they are told apart here: `layer c` and `td c` are codes received from the layers and from
the training data object, `observer` is `CantInitializeObserver`, `callback c` comes from the user's init callback, `diverged` is
`NNDiverged`. -/
inductive Code where
  | success
  | cantInitIMath
  | cantInitIRng
  | layer (c : Nat)
  | td (c : Nat)
  | callback (c : Nat)
  | observer
  | diverged
  deriving DecidableEq

/-- A network object. -/
structure St where
  /-- `common_nn_data`, `m_bRequireReinit` -/
  net : Net
  /-- argument of the last `on_batch_size_change` of the layers since they were initialised, 0: none -/
  told : Nat
  /-- batch size the activations of the layers were allocated for (`_act_stor_init_activations`), 0: layers are not initialised -/
  cap : Nat
  /-- `m_minTempStorageSize` smath.h -/
  pre : Nat
  /-- `m_threadTempRawStorage.size()` smath.h -/
  stor : Nat
  /-- number of times `gw_init` has created the state of the optimisers -/
  made : Nat
  /-- the present state of the optimisers: the number of its creation, `none` if there is none (`gw_deinit`) -/
  opt : Option Nat
  /-- `m_le` errors.h:76 -/
  err : Code
  /-- `m_failedLayerIdx` -/
  failed : Nat
  deriving DecidableEq

/-- A forward pass through the layers: rows of the batch, and what the network is set to at that moment. -/
structure Fwd where
  rows : Nat
  training : Bool
  told : Nat
  cap : Nat
  deriving DecidableEq

/-- A network just constructed: nnet.h:119-122, common_nn_data.h:95-101, errors.h:79. -/
def St.fresh : St :=
  { net := ⟨⟨0, 0, 0, false⟩, false⟩, told := 0, cap := 0, pre := 0, stor := 0, made := 0, opt := none, err := .success, failed := 0 }

/-- `_set_last_error` errors.h:88. -/
def St.setErr (s : St) (c : Code) : St × Code := ({ s with err := c }, c)

/-- `SMath::init` smath.h:231-239; the interface may answer false (`ok`). -/
def St.mathInit (s : St) (ok : Bool) : St := if ok then { s with stor := max s.stor s.pre } else s

/-- `preinit` smath.h:207-210. -/
def St.preinit (s : St) (n : Nat) : St := { s with pre := max s.pre n }

/-- `nnet::deinit` nnet.h:503-515: layers (`gw_deinit` grad_works.h:324-337 among them), math (smath.h:240-246), `common_nn_data`. -/
def St.deinit (s : St) : St :=
  { s with net := s.net.deinit, told := 0, cap := 0, pre := 0, stor := 0, opt := none }

/-- What the environment decides in an initialisation: `layers = some (i, c)`: layer `i` fails with `c`; `need`: the biggest argument
of `preinit` used by the layers; `mathOk`, `rngOk`: answers of `get_iMath().init()` and `get_iRng().init_rng()`. -/
structure Outcome where
  layers : Option (Nat × Nat)
  need : Nat
  mathOk : Bool
  rngOk : Bool

/-- `_full_init` nnet.h:375-413. A failure runs `deinit` (384-387). -/
def St.fullInit (s : St) (fprop batch : Nat) (o : Outcome) : St × Code :=
  -- 389 `common_nn_data::init`, 391 `m_failedLayerIdx = 0`
  let s := { s with net := { s.net with cd := { s.net.cd with maxFprop := fprop, trainBs := batch, cur := 0, training := false } },
                    failed := 0 }
  match o.layers with
  | some (i, c) => ({ s.deinit with failed := i, made := s.made + 1 }, .layer c)
  | none =>
    -- memory for activations is taken for the biggest batch (_activation_storage.h:90-111), `gw_init` is run
    let s := { s with cap := max fprop batch, told := 0, pre := max s.pre o.need, made := s.made + 1, opt := some (s.made + 1) }
    if !o.mathOk then (s.deinit, .cantInitIMath)
    else
      let s := s.mathInit true
      if !o.rngOk then (s.deinit, .cantInitIRng) else (s, .success)

/-- `_init` nnet.h:335-349. -/
def St.init (s : St) (fprop batch : Nat) (o : Outcome) : Option (St × Code) :=
  if fprop > 0 ∧ fprop ≥ batch then
    if s.net.isInitialized fprop batch then
      if o.mathOk then some (s.mathInit true, .success) else some (s, .cantInitIMath)
    else some (s.deinit.fullInit fprop batch o)
  else none

/-- `common_nn_data::set_mode_and_batch_size` common_nn_data.h:154-165 with its assertions, followed by `on_batch_size_change` of the
layers if it returns true (nnet.h:482-484, 490-492, 497-499). -/
def St.setMode (s : St) (training : Bool) (bs : Nat) : Option St :=
  if s.net.cd.maxFprop > 0 ∧ bs > 0 ∧
      ((training = true ∧ s.net.cd.trainBs > 0 ∧ bs ≤ s.net.cd.trainBs) ∨ (training = false ∧ bs ≤ s.net.cd.maxFprop)) then
    let p := s.net.cd.setMode training bs
    some { s with net := { s.net with cd := p.1 }, told := if p.2 = [] then s.told else bs }
  else none

/-- `_set_mode_and_batch_size` nnet.h:477-485. -/
def St.setModeBs (s : St) (bs : Nat) : Option St :=
  if bs = 0 then s.setMode true s.net.cd.trainBs else s.setMode false bs

/-- `m_Layers.fprop(batch)` of a batch of `rows` rows: nothing but the record of it. -/
def St.pass (s : St) (rows : Nat) : Fwd := ⟨rows, s.net.cd.training, s.told, s.cap⟩

/-- `_fprop` nnet.h:253-257. A batch without rows is refused: it has no bias column to be tested (layers.h:306,
`test_biases_strict` smatrix.h:686-688). -/
def St.fwd (s : St) (rows : Nat) : Option (St × List Fwd) :=
  if rows = 0 then none else (s.setModeBs rows).map fun s => (s, [s.pass rows])

/-- `fprop` nnet.h:723-729. -/
def St.fprop (s : St) (rows : Nat) (o : Outcome) : Option (St × List Fwd × Code) :=
  match s.init rows 0 o with
  | none => none
  | some (s, c) =>
    if c ≠ .success then some ((s.setErr c).1, [], c)
    else (s.fwd rows).map fun p => ((p.1.setErr c).1, p.2, c)

/-- `init4fixedBatchFprop(bs)` nnet.h:681-687. -/
def St.initFixed (s : St) (bs : Nat) (o : Outcome) : Option (St × Code) :=
  if bs = 0 then none
  else
    match s.init bs 0 o with
    | none => none
    | some (s, c) =>
      if c ≠ .success then some (s.setErr c)
      else (s.setMode false bs).map fun s => s.setErr c

/-- `init4fixedBatchFprop(td, bs)` nnet.h:690-704. `ready = some b`: `td.is_initialized4inference` answers true and leaves `b` in its
argument; otherwise `made` is the outcome of `td.init4inference` (`.ok b`: the size it leaves). `need` is what `td.preinit_iMath` asks
for, `mathOk2` the answer of the last `iM.init()`. -/
def St.initFixedTd (s : St) (ready : Option Nat) (made : Except Nat Nat) (need : Nat) (o : Outcome) (mathOk2 : Bool) :
    Option (St × Code) :=
  let go (bs : Nat) : Option (St × Code) :=
    match s.initFixed bs o with
    | none => none
    | some (s, c) =>
      if c ≠ .success then some (s, c)
      else
        let s := (s.preinit need).mathInit mathOk2
        some (s.setErr (if mathOk2 then .success else .cantInitIMath))
  match ready with
  | some bs => go bs
  | none =>
    match made with
    | .error c => some (s, .td c)
    | .ok bs => go bs

/-- `prepare_to_doFixedBatchFprop` nnet.h:706-708. -/
def St.prepare (s : St) (bs : Nat) : Option St := s.setMode false bs

/-- `doFixedBatchFprop` nnet.h:711-718. A batch without rows is refused as in `St.fwd`. -/
def St.doFixed (s : St) (rows : Nat) : Option (St × List Fwd) :=
  if rows = 0 then none
  else if rows ≠ s.net.cd.cur then (s.setMode false rows).map fun s => (s, [s.pass rows])
  else some (s, [s.pass rows])

/-- `calcLossAndReport` nnet.h:264-301 over batches of the given sizes. -/
def St.evaluate (s : St) : List Nat → Option (St × List Fwd)
  | [] => some (s, [])
  | r :: rs =>
    match s.fwd r with
    | none => none
    | some (s, l) => (s.evaluate rs).map fun p => (p.1, l ++ p.2)

/-- `n` iterations of the loop over batches nnet.h:602-622: forward passes of batches of `cd.input_batch_size()` rows
(`on_next_epoch` _train_data_simple.h:244-248 with its default argument). -/
def St.learn (s : St) : Nat → List Fwd
  | 0 => []
  | n + 1 => s.pass s.net.cd.cur :: s.learn n

/-- The epochs of `train()` nnet.h:597-660: each is the number of its batches, the sizes of the batches of the report after it (empty:
no report), and whether the callback lets it go on. The callback itself leaves the network alone. -/
def St.epochs (s : St) : List (Nat × List Nat × Bool) → Option (St × List Fwd)
  | [] => some (s, [])
  | (n, rep, goOn) :: es =>
    let l := s.learn n
    match s.evaluate rep with
    | none => none
    | some (s, l') =>
      if !goOn then some (s, l ++ l')
      else
        match s.setModeBs 0 with
        | none => none
        | some s => (s.epochs es).map fun p => (p.1, l ++ l' ++ p.2)

/-- What `train()` meets: the outcome of the initialisation of the training data object (sizes left in the arguments or an error), what
its `preinit_iMath` asks for, the answers of the init callback and of the observer, sizes of the batches of the first report, the
epochs, how it ends, and the option `ImmediatelyDeinit`. -/
structure Session where
  td : Except Nat (Nat × Nat)
  need : Nat
  o : Outcome
  onInit : Code
  observer : Bool
  first : List Nat
  epochs : List (Nat × List Nat × Bool)
  diverged : Bool
  immediatelyDeinit : Bool

/-- `_init4train` nnet.h:351-373. -/
def St.init4train (s : St) (x : Session) : Option (St × Code) :=
  match x.td with
  | .error c => some (s.setErr (.td c))
  | .ok (f, b) =>
    if f > 0 ∧ b > 0 ∧ b ≤ f then
      -- `td.init4train` may have called `preinit`
      let s := s.preinit x.need
      if s.net.isInitialized f b then
        if x.o.mathOk then some (s.mathInit true, .success) else some (s, .cantInitIMath)
      else some ((s.deinit.preinit x.need).fullInit f b x.o)
    else none

/-- `train()` nnet.h:523-676 for data fitting the network (checks 534-536 passed) without the clean-up. -/
def St.trainBody (s : St) (x : Session) : Option (St × List Fwd × Code) :=
  match s.init4train x with
  | none => none
  | some (s, c) =>
    if c ≠ .success then some ((s.setErr c).1, [], c)
    else if x.onInit ≠ .success then some ((s.setErr x.onInit).1, [], x.onInit)
    else if !x.observer then some ((s.setErr .observer).1, [], .observer)
    else
      match s.evaluate x.first with
      | none => none
      | some (s, l) =>
        match s.setModeBs 0 with
        | none => none
        | some s =>
          match s.epochs x.epochs with
          | none => none
          | some (s, l') =>
            let c : Code := if x.diverged then .diverged else .success
            some ((s.setErr c).1, l ++ l', c)

/-- `train()` with the clean-up of nnet.h:539-546. -/
def St.train (s : St) (x : Session) : Option (St × List Fwd × Code) :=
  (s.trainBody x).map fun p => (if x.immediatelyDeinit then p.1.deinit else p.1, p.2)

/-- The public calls. -/
inductive Call where
  | fprop (rows : Nat) (o : Outcome)
  | initFixed (bs : Nat) (o : Outcome)
  | initFixedTd (ready : Option Nat) (made : Except Nat Nat) (need : Nat) (o : Outcome) (mathOk2 : Bool)
  | prepare (bs : Nat)
  | doFixed (rows : Nat)
  | evaluate (rows : List Nat)
  | train (x : Session)
  | requireReinit
  | dontRequireReinit
  | deinit

/-- One call: new state, forward passes made, returned code (`success` for functions returning nothing). `require_reinit`,
`dont_require_reinit` nnet.h:159-160. -/
def St.call (s : St) : Call → Option (St × List Fwd × Code)
  | .fprop rows o => s.fprop rows o
  | .initFixed bs o => (s.initFixed bs o).map fun p => (p.1, [], p.2)
  | .initFixedTd ready made need o ok => (s.initFixedTd ready made need o ok).map fun p => (p.1, [], p.2)
  | .prepare bs => (s.prepare bs).map fun s => (s, [], .success)
  | .doFixed rows => (s.doFixed rows).map fun p => (p.1, p.2, .success)
  | .evaluate rows => (s.evaluate rows).map fun p => (p.1, p.2, .success)
  | .train x => s.train x
  | .requireReinit => some ({ s with net := { s.net with requireReinit := true } }, [], .success)
  | .dontRequireReinit => some ({ s with net := { s.net with requireReinit := false } }, [], .success)
  | .deinit => some (s.deinit, [], .success)

/-- A history of calls from a state: the calls with what they did. -/
inductive History : St → List (Call × List Fwd × Code) → St → Prop
  | nil (s : St) : History s [] s
  | cons {s s1 s2 : St} {c : Call} {l : List Fwd} {r : Code} {h : List (Call × List Fwd × Code)} :
      s.call c = some (s1, l, r) → History s1 h s2 → History s ((c, l, r) :: h) s2

end Nntl.Session

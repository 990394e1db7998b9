import Verif.Model.FileIO

/-!
# The third-level manager and two systems

`/repo/third_level_manager/thirdLevelManager.cpp`, `/repo/src/third_level/ThirdLevelUtils.hpp`, and the
parts of `/repo/src/manager/ProcessManager.hpp`, `ProcessManager.cpp` and `ProcessGroupManager.cpp` that
talk to it.

Three processes run concurrently: the two systems (only the process manager of each, which holds the
connection) and the third-level manager. Each system is connected to the manager by one channel in
each direction. A channel holds whole messages and hands them over in order; that text messages,
binary data and forwarded data arrive as they were sent is the subject of `Model/Network.lean` (C44,
C45, C47). Channels have a finite capacity: sending to a full channel waits.
-/

namespace Verif

/-- Binary data. -/
inductive Payload (α : Type) where
  | values (xs : List α)
  | sizes (xs : List ℕ)

/-- The bytes of binary data (`sizeof(FG_ELEMENT) = sz`, `sizeof(SubspaceSizeType) = 4`). -/
def Payload.bytes {α : Type} (sz : ℕ) : Payload α → ℕ
  | .values xs => xs.length * sz
  | .sizes xs => xs.length * 4

/-- The messages: texts, among them the decimal representation of a number (`size`), and binary data
(`block`). -/
inductive TLMsg (α : Type) where
  | readyToCombine | readyToCombineFile | readyToUnify | readyToExchange
  | sendFirst | recvFirst | writeOk
  | sendingData | ready | finished
  | size (n : ℕ)
  | block (p : Payload α)

/-- What one of the systems still has to do: terminate with a result, stop because of an assertion or
an exception, send a message or receive one. -/
inductive SysProg (α R : Type) where
  | done (r : R)
  | fail
  | send (m : TLMsg α) (k : SysProg α R)
  | recv (k : TLMsg α → SysProg α R)

/-- What the third-level manager still has to do; the systems are numbered by `Bool`. `loop systems`
is the head of `runtimeLoop` with these connected systems, `combining systems initiator` the head of
the loop of `processCombination`. -/
inductive MgrProg (α : Type) where
  | loop (systems : List Bool)
  | combining (systems : List Bool) (initiator : Bool)
  | fail
  | send (s : Bool) (m : TLMsg α) (k : MgrProg α)
  | recv (s : Bool) (k : TLMsg α → MgrProg α)

/-! ### The third-level manager -/

/-- `forwardData`, l.281-293. The data that the sender announces and the data it sends must have the
same size: otherwise `forward` would wait for more, or stop in the middle. -/
def forwardData {α : Type} (sz : ℕ) (sender receiver : Bool) (k : MgrProg α) : MgrProg α :=
  .recv sender fun m => match m with
    | .size n => .send receiver (.size n) <|
        if n ≠ 0 then
          .recv sender fun b => match b with
            | .block p => if p.bytes sz + 1 = n then .send receiver (.block p) k else .fail
            | _ => .fail
        else k
    | _ => .fail

/-- One pass of the loop of `processCombination`, l.161-171, or, if the initiator is ready, lines
173-175. -/
def combinationPass {α : Type} (sz : ℕ) (systems : List Bool) (initiator : Bool) : MgrProg α :=
  .recv initiator fun m => match m with
    | .ready => .recv (!initiator) fun m' => match m' with
        | .ready => .loop systems
        | _ => .fail
    | .sendingData => forwardData sz initiator (!initiator) <|
        .recv (!initiator) fun m' => match m' with
          | .sendingData => forwardData sz (!initiator) initiator (.combining systems initiator)
          | _ => .fail
    | _ => .fail

/-- `processCombination`, l.146-176. -/
def processCombination {α : Type} (systems : List Bool) (initiator : Bool) :
    MgrProg α :=
  if systems.length ≠ 2 then .fail
  else
    .send initiator .sendFirst <|
    .recv (!initiator) fun m => match m with
      | .readyToCombine =>
          .send (!initiator) .recvFirst <|
          .combining systems initiator
      | _ => .fail

/-- `processCombinationFile`, l.179-197. -/
def processCombinationFile {α : Type} (systems : List Bool) (initiator : Bool) : MgrProg α :=
  if systems.length ≠ 2 then .fail
  else
    .send initiator .writeOk <|
    .recv (!initiator) fun m => match m with
      | .readyToCombineFile =>
          .send (!initiator) .writeOk <|
          .recv initiator fun m1 => match m1 with
            | .ready => .recv (!initiator) fun m2 => match m2 with
                | .ready => .loop systems
                | _ => .fail
            | _ => .fail
      | _ => .fail

/-- Lines 217-232 of `processUnifySubspaceSizes`. -/
def unifyTransfer {α : Type} (sz : ℕ) (systems : List Bool) (initiator other : Bool) : MgrProg α :=
  let final : MgrProg α := .recv initiator fun m1 => match m1 with
    | .ready => .recv other fun m2 => match m2 with
        | .ready => .loop systems
        | _ => .fail
    | _ => .fail
  let second : MgrProg α := .recv other fun m => match m with
    | .sendingData => forwardData sz other initiator final
    | _ => final
  .recv initiator fun m => match m with
    | .sendingData => forwardData sz initiator other second
    | _ => second

/-- `processUnifySubspaceSizes`, l.202-233. -/
def processUnifySubspaceSizes {α : Type} (sz : ℕ) (systems : List Bool) (initiator : Bool) :
    MgrProg α :=
  if systems.length ≠ 2 then .fail
  else
    .send initiator .sendFirst <|
    .recv (!initiator) fun m => match m with
      | .readyToUnify =>
          .send (!initiator) .recvFirst <| unifyTransfer sz systems initiator (!initiator)
      | _ => .fail

/-- Lines 247-267 of `processAnyData`. -/
def anyTransfer {α : Type} (sz : ℕ) (systems : List Bool) (initiator other : Bool) : MgrProg α :=
  let final : MgrProg α := .recv initiator fun m1 => match m1 with
    | .ready => .recv other fun m2 => match m2 with
        | .ready => .loop systems
        | _ => .fail
    | _ => .fail
  let second : MgrProg α := .recv other fun m => match m with
    | .sendingData => forwardData sz other initiator final
    | .ready => .recv initiator fun m1 => match m1 with
        | .ready => .loop systems
        | _ => .fail
    | _ => .fail
  .recv initiator fun m => match m with
    | .sendingData => forwardData sz initiator other second
    | _ => second

/-- `processAnyData`, l.235-268. -/
def processAnyData {α : Type} (sz : ℕ) (systems : List Bool) (initiator : Bool) : MgrProg α :=
  if systems.length ≠ 2 then .fail
  else
    .send initiator .sendFirst <|
    .recv (!initiator) fun m => match m with
      | .readyToExchange =>
          .send (!initiator) .recvFirst <| anyTransfer sz systems initiator (!initiator)
      | _ => .fail

/-- `processMessage`, l.126-138; `finished` is `processFinished`, l.273-276. Other messages are
ignored. -/
def processMessage {α : Type} (sz : ℕ) (systems : List Bool) (s : Bool) :
    TLMsg α → MgrProg α
  | .readyToCombine => processCombination systems s
  | .readyToCombineFile => processCombinationFile systems s
  | .readyToUnify => processUnifySubspaceSizes sz systems s
  | .readyToExchange => processAnyData sz systems s
  | .finished => .loop (systems.erase s)
  | _ => .loop systems

/-- The head of the inner loop is replaced by a pass through the loop. -/
def MgrProg.unfold {α : Type} (sz : ℕ) : MgrProg α → MgrProg α
  | .combining systems initiator => combinationPass sz systems initiator
  | p => p

/-! ### The three processes together -/

/-- The systems, the manager, and the channels from the systems to the manager (`up`) and back
(`down`). -/
structure TLState (α R : Type) where
  sys : Bool → SysProg α R
  mgr : MgrProg α
  up : Bool → List (TLMsg α)
  down : Bool → List (TLMsg α)

variable {α R : Type}

/-- System `s` takes its next step, if it can: a channel that is full or empty makes it wait. -/
def sysStep (cap : ℕ) (s : Bool) (x : TLState α R) : Option (TLState α R) :=
  match x.sys s with
  | .done _ => none
  | .fail => none
  | .send m k =>
      if (x.up s).length < cap then
        some { x with sys := Function.update x.sys s k, up := Function.update x.up s (x.up s ++ [m]) }
      else none
  | .recv k => match x.down s with
      | [] => none
      | m :: rest =>
          some { x with sys := Function.update x.sys s (k m), down := Function.update x.down s rest }

/-- The manager takes its next step, if it can. In `runtimeLoop`, l.104-123, it looks at the systems in
turn, with a time limit, and serves one from which a message is there: which one that is depends on
timing, so the choice `s` is free among the systems from which a message is there. -/
def mgrStep (cap sz : ℕ) (s : Bool) (x : TLState α R) : Option (TLState α R) :=
  match x.mgr.unfold sz with
  | .loop systems =>
      if s ∈ systems then
        match x.up s with
        | [] => none
        | m :: rest =>
            some { x with mgr := processMessage sz systems s m,
                          up := Function.update x.up s rest }
      else none
  | .combining _ _ => none
  | .fail => none
  | .send t m k =>
      if (x.down t).length < cap then
        some { x with mgr := k, down := Function.update x.down t (x.down t ++ [m]) }
      else none
  | .recv t k => match x.up t with
      | [] => none
      | m :: rest => some { x with mgr := k m, up := Function.update x.up t rest }

/-- One of the three processes takes a step. -/
inductive TLStep (cap sz : ℕ) : TLState α R → TLState α R → Prop where
  | sys (s x y) : sysStep cap s x = some y → TLStep cap sz x y
  | mgr (s x y) : mgrStep cap sz s x = some y → TLStep cap sz x y

/-! ### The systems -/

/-- `ThirdLevelUtils::sendData`, l.82-90. -/
def tlSendData (sz : ℕ) (p : Payload α) (k : SysProg α R) : SysProg α R :=
  .send .sendingData <| .send (.size (p.bytes sz + 1)) <| .send (.block p) k

/-- The binary part of `ThirdLevelUtils::recvData`: `n` values must arrive. -/
def onValues (n : ℕ) (k : List α → SysProg α R) : TLMsg α → SysProg α R
  | .block (.values xs) => if xs.length = n then k xs else .fail
  | _ => .fail

/-- `ThirdLevelUtils::recvData`, l.92-101, for elements of type `FG_ELEMENT`: the data received. -/
def tlRecvValues (sz n : ℕ) (k : List α → SysProg α R) : SysProg α R :=
  .recv fun m => match m with
    | .size raw => if (raw - 1) / sz = n then .recv (onValues n k) else .fail
    | _ => .fail

/-- Likewise for sizes. -/
def onSizes (n : ℕ) (k : List ℕ → SysProg α R) : TLMsg α → SysProg α R
  | .block (.sizes xs) => if xs.length = n then k xs else .fail
  | _ => .fail

/-- `ThirdLevelUtils::recvData`, l.92-101, for `SubspaceSizeType`. -/
def tlRecvSizes (n : ℕ) (k : List ℕ → SysProg α R) : SysProg α R :=
  .recv fun m => match m with
    | .size raw => if (raw - 1) / 4 = n then .recv (onSizes n k) else .fail
    | _ => .fail

/-- The loop body of `exchangeDsgus`, `ProcessGroupManager.cpp` l.386-421, for one grid on one process.
`dsguSize` is the size the manager computed and `dsgu` what the worker sends (`CombiCom::sendDsgData`,
the raw data of the worker's grid). `recvDsguFromWorker`, l.181-196, throws if `dsguSize` is zero, and
`MPI_Recv` fails if the message is longer than the buffer (a shorter one leaves old values, modelled
as `fail` too). `add` is the addition of `FG_ELEMENT`; `recvAndAddToData`, `ThirdLevelUtils.hpp`
l.104-114, computes `own + received`. The continuation gets what is sent back to the worker. -/
def exchangeDsgu (sz : ℕ) (add : α → α → α) (isSendingFirst : Bool) (dsguSize : ℕ) (dsgu : List α)
    (k : List α → SysProg α R) : SysProg α R :=
  if dsguSize = 0 ∨ dsgu.length ≠ dsguSize then .fail
  else if isSendingFirst then
    tlSendData sz (.values dsgu) <| tlRecvValues sz dsguSize k
  else
    tlRecvValues sz dsguSize fun xs =>
      let combined := List.zipWith add dsgu xs
      tlSendData sz (.values combined) (k combined)

/-- The two loops of `exchangeDsgus` over grids and processes, as a list of sizes and data in that
order. -/
def exchangeDsgusLoop (sz : ℕ) (add : α → α → α) (isSendingFirst : Bool) :
    List (ℕ × List α) → List (List α) → (List (List α) → SysProg α R) → SysProg α R
  | [], acc, k => k acc
  | (dsguSize, dsgu) :: rest, acc, k =>
      exchangeDsgu sz add isSendingFirst dsguSize dsgu fun xs =>
        exchangeDsgusLoop sz add isSendingFirst rest (acc ++ [xs]) k

/-- The grids in the order of `exchangeDsgus`: `dsguDataSizePerWorker_` is the list `sizePerWorker`,
`data g p` is grid `g` on process `p`. -/
def dsgusInOrder (numGrids : ℕ) (sizePerWorker : List ℕ) (data : ℕ → ℕ → List α) :
    List (ℕ × List α) :=
  (List.range numGrids).flatMap fun g =>
    (List.range sizePerWorker.length).map fun p => (sizePerWorker.getD p 0 / numGrids, data g p)

/-- `std::accumulate(begin, end, 0)` over unsigned 32- or 64-bit numbers: the sum is converted to `int`
after every addition. -/
def accumulateInt (l : List ℕ) : ℤ := l.foldl (fun (acc : ℤ) (x : ℕ) => Int.bmod (acc + (x : ℤ)) (2 ^ 32)) 0

/-- The conversion of `int` to `size_t`. -/
def intToSizeT (i : ℤ) : ℕ := (i % 2 ^ 64).toNat

/-- The loops "set accumulated dsgu sizes per worker" of `reduceLocalAndRemoteSubspaceSizes`, l.285-293
and l.314-322: `counts` is `numSubspacesPerWorker`. -/
def sizesPerWorker : List ℕ → List ℕ → List ℕ
  | [], _ => []
  | c :: cs, buff => intToSizeT (accumulateInt (buff.take c)) :: sizesPerWorker cs (buff.drop c)

/-- `reduceLocalAndRemoteSubspaceSizes`, l.253-327, for the sizes that the workers hold (one list per
worker, gathered in the order of the workers by `collectSubspaceSizes`, l.424-468). The continuation
gets the sizes that `distributeSubspaceSizes`, l.470-494, scatters back, and the two lists of sums
`formerDsguDataSizePerWorker_` and `dsguDataSizePerWorker_`. -/
def reduceLocalAndRemoteSubspaceSizes (sz : ℕ) (isSendingFirst extra : Bool) (workers : List (List ℕ))
    (k : List ℕ → List ℕ → List ℕ → SysProg α R) : SysProg α R :=
  let sendBuff := workers.flatten
  let counts := workers.map List.length
  let finish (recvBuff : List ℕ) : SysProg α R :=
    if (List.zipWith (fun a b => decide (b = a ∨ b = 0 ∨ a = 0)) sendBuff recvBuff).all id then
      let reduced := List.zipWith (fun a b => if extra then min a b else max a b) sendBuff recvBuff
      k reduced (sizesPerWorker counts sendBuff) (sizesPerWorker counts reduced)
    else .fail
  if isSendingFirst then
    tlSendData sz (.sizes sendBuff) <| tlRecvSizes sendBuff.length finish
  else
    tlRecvSizes sendBuff.length fun xs => tlSendData sz (.sizes sendBuff) (finish xs)

/-- The function for two other systems in `SparseGridWorker::reduceExtraSubspaceSizes`,
`SparseGridWorker.hpp` l.964-968, in 32-bit unsigned arithmetic. -/
def moreThanOneFunction (a b c : ℕ) : ℕ :=
  let maxValue := max a (max b c)
  if (a + b + c) % 2 ^ 32 > maxValue then maxValue else 0

/-- `SparseGridWorker::reduceExtraSubspaceSizes`, l.917-996, without `overwrite`, on one process of
the output group: `own` are the sizes of the combined grid after `maxReduceSubspaceSizesInOutputGroup`,
which the new extra grid gets (`setExtraSparseGrid`, l.1086-1113), and `others` the sizes read for this
process from the files of the other systems. The result are the sizes of the extra grid and of the
combined grid (`maxReduceSubspaceSizes`). For another number of files, an exception. -/
def reduceExtraSubspaceSizes (own : List ℕ) (others : List (List ℕ)) : Outcome (List ℕ × List ℕ) :=
  match others with
  | [b] =>
      let extra := List.zipWith min own b
      .ok (extra, List.zipWith max own extra)
  | [b, c] =>
      let extra := List.zipWith (fun a bc => moreThanOneFunction a bc.1 bc.2) own (b.zip c)
      .ok (extra, List.zipWith max own extra)
  | _ => .error

/-- What a system asks for. -/
inductive TLOp (α : Type) where
  /-- `combineThirdLevel` -/
  | combine (numGrids : ℕ) (sizePerWorker : List ℕ) (data : ℕ → ℕ → List α)
  /-- `combineThirdLevelFileBased` -/
  | combineFile
  /-- `unifySubspaceSizesThirdLevel` -/
  | unify (extra : Bool) (workers : List (List ℕ))
  /-- `monteCarloThirdLevel` with the system's own random points (serialized), the interpolation on
  this system, and whether assertions are compiled in. -/
  | monteCarlo (numPoints : ℕ) (coords : List α) (interpolate : List α → List α) (debug : Bool)

/-- What a system gets. -/
inductive TLResult (α : Type) where
  | dsgus (xs : List (List α))
  | nothing
  | sizes (xs : List ℕ) (total : ℕ)
  | values (coords vals : List α)

/-- `ProcessManager::combineThirdLevel`, `ProcessManager.hpp` l.505-529. The communication with the
workers is left out, apart from what `exchangeDsgu` says. -/
def combineThirdLevelProg (sz : ℕ) (add : α → α → α) (numGrids : ℕ) (sizePerWorker : List ℕ)
    (data : ℕ → ℕ → List α) (k : TLResult α → SysProg α R) : SysProg α R :=
  .send .readyToCombine <| .recv fun instruction => match instruction with
    | .sendFirst => exchangeDsgusLoop sz add true (dsgusInOrder numGrids sizePerWorker data) []
        fun r => .send .ready (k (.dsgus r))
    | .recvFirst => exchangeDsgusLoop sz add false (dsgusInOrder numGrids sizePerWorker data) []
        fun r => .send .ready (k (.dsgus r))
    | _ => .send .ready (k .nothing)

/-- `ProcessManager::combineThirdLevelFileBased`, l.567-591; the files are the subject of C35-C37. -/
def combineFileProg (k : TLResult α → SysProg α R) : SysProg α R :=
  .send .readyToCombineFile <| .recv fun instruction => match instruction with
    | .writeOk => .send .ready (k .nothing)
    | _ => .fail

/-- `ProcessManager::unifySubspaceSizesThirdLevel`, l.653-695: with the sums, and the exceptions if the
size of the grid changed in the wrong direction. -/
def unifyProg (sz : ℕ) (extra : Bool) (workers : List (List ℕ)) (k : TLResult α → SysProg α R) :
    SysProg α R :=
  let finish (reduced former new : List ℕ) : SysProg α R :=
    .send .ready <|
      let formerDsguDataSize := accumulateInt former
      let dsguDataSize := accumulateInt new
      if extra ∧ dsguDataSize > formerDsguDataSize then .fail
      else if ¬ extra ∧ dsguDataSize < formerDsguDataSize then .fail
      else k (.sizes reduced (intToSizeT dsguDataSize))
  .send .readyToUnify <| .recv fun instruction => match instruction with
    | .sendFirst => reduceLocalAndRemoteSubspaceSizes sz true extra workers finish
    | .recvFirst => reduceLocalAndRemoteSubspaceSizes sz false extra workers finish
    | _ => .send .ready (k .nothing)

/-- The second half of `monteCarloThirdLevel`, `ProcessManager.cpp` l.551-575. -/
def monteCarloValues (sz : ℕ) (add : α → α → α) (numPoints : ℕ) (coords vals : List α)
    (k : TLResult α → SysProg α R) : SysProg α R :=
  let finish (remote : List α) : SysProg α R :=
    .send .ready (k (.values coords (List.zipWith add vals remote)))
  .send .readyToExchange <| .recv fun instruction => match instruction with
    | .sendFirst => tlSendData sz (.values vals) <| tlRecvValues sz numPoints finish
    | .recvFirst => tlRecvValues sz numPoints fun xs => tlSendData sz (.values vals) (finish xs)
    | _ => .fail

/-- `monteCarloThirdLevel`, l.514-575. With assertions, the receiver sends the points back and the
sender compares them. The points are as serialized (see C55); the elements have the same type as the
values here, in the code they are `real`, of a possibly different size. -/
def monteCarloProg [DecidableEq α] (sz : ℕ) (add : α → α → α) (numPoints : ℕ) (coords : List α)
    (interpolate : List α → List α) (debug : Bool) (k : TLResult α → SysProg α R) : SysProg α R :=
  let finish (cs : List α) : SysProg α R :=
    .send .ready (monteCarloValues sz add numPoints cs (interpolate cs) k)
  .send .readyToExchange <| .recv fun instruction => match instruction with
    | .sendFirst => tlSendData sz (.values coords) <|
        if debug then
          tlRecvValues sz coords.length fun theirs => if theirs = coords then finish coords else .fail
        else finish coords
    | .recvFirst => tlRecvValues sz coords.length fun theirs =>
        if debug then tlSendData sz (.values theirs) (finish theirs) else finish theirs
    | _ => .fail

/-- One operation. -/
def tlOpProg [DecidableEq α] (sz : ℕ) (add : α → α → α) (op : TLOp α) (k : TLResult α → SysProg α R) :
    SysProg α R :=
  match op with
  | .combine numGrids sizePerWorker data => combineThirdLevelProg sz add numGrids sizePerWorker data k
  | .combineFile => combineFileProg k
  | .unify extra workers => unifyProg sz extra workers k
  | .monteCarlo numPoints coords interpolate debug =>
      monteCarloProg sz add numPoints coords interpolate debug k

/-- A system that performs some operations and then logs off (`~ThirdLevelUtils`, `ThirdLevelUtils.cpp`
l.12-17): it ends with the results. -/
def tlSystem [DecidableEq α] (sz : ℕ) (add : α → α → α) :
    List (TLOp α) → List (TLResult α) → SysProg α (List (TLResult α))
  | [], acc => .send .finished (.done acc)
  | op :: ops, acc => tlOpProg sz add op fun r => tlSystem sz add ops (acc ++ [r])

/-- Both systems have connected (`ThirdLevelManager::init`, l.73-99) and nothing has been sent. -/
def tlStart [DecidableEq α] (sz : ℕ) (add : α → α → α) (ops : Bool → List (TLOp α)) :
    TLState α (List (TLResult α)) where
  sys := fun s => tlSystem sz add (ops s) []
  mgr := .loop [false, true]
  up := fun _ => []
  down := fun _ => []

end Verif

import Verif.IxData
/-
Transactions and histories: the Solana runtime around the controller.
-/
set_option autoImplicit false
namespace S

/-- Runtime rule: the controller's PDAs have no private key and the controller signs for them only in its own calls
to the token and system programs, so an instruction of the controller never sees them as signers. -/
def signersOk (cfg : Cfg) (accs : List Acc) : Prop :=
  ∀ a ∈ accs, a.signer = true → a.key ≠ cfg.poolState ∧ a.key ≠ cfg.protocolFee

instance (cfg : Cfg) (accs : List Acc) : Decidable (signersOk cfg accs) := by unfold signersOk; infer_instance

/-- One call of the controller, from the top level or by CPI, with the behaviour of the other programs during it. -/
structure Call (cfg : Cfg) where
  env : Env cfg
  accs : List Acc
  data : List UInt8

/-- Runs one call of the controller at the given position of a transaction. -/
def Call.run {cfg : Cfg} (L : RatioLib) (tx : TxInfo) (w : World) (c : Call cfg) : R World := do
  require (signersOk cfg c.accs) .missingRequiredSignature
  processInstruction cfg L c.env tx w cfg.programId c.accs c.data

/-- What a foreign program can do while it runs: change the ledger within `Ledger.ExtOk`, or call the controller. -/
inductive Action (cfg : Cfg) : Type
  | ext (f : Ledger → Ledger) (ok : ∀ l : Ledger, l.ExtOk cfg (f l))
  | call (c : Call cfg)

def Action.run {cfg : Cfg} (L : RatioLib) (tx : TxInfo) (w : World) : Action cfg → R World
  | .ext f _ => .ok { w with led := f w.led }
  | .call c => c.run L tx w

/-- A top-level instruction with its execution: of the controller, or of a foreign program performing actions. -/
inductive Step (cfg : Cfg) : Type
  | controller (c : Call cfg)
  | foreign (ix : TopIx) (notController : ix.program ≠ cfg.programId) (actions : List (Action cfg))

/-- The instruction as listed in the transaction. -/
def Step.top {cfg : Cfg} : Step cfg → TopIx
  | .controller c => ⟨cfg.programId, c.accs, c.data⟩
  | .foreign ix _ _ => ix

def runActions {cfg : Cfg} (L : RatioLib) (tx : TxInfo) : World → List (Action cfg) → R World
  | w, [] => .ok w
  | w, a :: as => do
    let w ← a.run L tx w
    runActions L tx w as

def Step.run {cfg : Cfg} (L : RatioLib) (tx : TxInfo) (w : World) : Step cfg → R World
  | .controller c => c.run L tx w
  | .foreign _ _ as => runActions L tx w as

/-- A transaction: its top-level instructions, executed in order. -/
abbrev Tx (cfg : Cfg) : Type := List (Step cfg)

/-- Runs the instructions from position `i` on. -/
def runSteps {cfg : Cfg} (L : RatioLib) (ixs : List TopIx) : Nat → World → List (Step cfg) → R World
  | _, w, [] => .ok w
  | i, w, s :: ss => do
    let w ← s.run L ⟨ixs, i⟩ w
    runSteps L ixs (i + 1) w ss

def Tx.run {cfg : Cfg} (L : RatioLib) (w : World) (t : Tx cfg) : R World := runSteps L (List.map Step.top t) 0 w t

/-- A failed transaction leaves the state unchanged. -/
def Tx.apply {cfg : Cfg} (L : RatioLib) (w : World) (t : Tx cfg) : World :=
  match Tx.run L w t with
  | .ok w' => w'
  | .error _ => w

/-- The state after a history of transactions. -/
def runHistory {cfg : Cfg} (L : RatioLib) (w : World) (h : List (Tx cfg)) : World := h.foldl (Tx.apply L) w

/-- A world as found when the program is deployed: no controller account exists; tokens are arbitrary. -/
structure World.Fresh (cfg : Cfg) (w : World) : Prop where
  ctl : w.ctl = Ctl.init
  wf : w.led.Wf cfg

/-- States reachable by any history of transactions from a fresh world. -/
def Reachable (cfg : Cfg) (L : RatioLib) (w : World) : Prop :=
  ∃ w₀, World.Fresh cfg w₀ ∧ ∃ h : List (Tx cfg), w = runHistory L w₀ h

end S

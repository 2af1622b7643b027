import Verif.Tx
/-
Specification vocabulary for properties about histories: the committed events of a history.
An event is one action (a ledger change by a foreign program, or a call of the controller, at top level or by CPI) of a
transaction that succeeded, with the state before and after it.
-/
set_option autoImplicit false
namespace S

/-- One committed action with the states around it. -/
structure Event (cfg : Cfg) where
  tx : TxInfo
  pre : World
  act : Action cfg
  post : World

/-- The actions of a top-level instruction. -/
def Step.actions {cfg : Cfg} : Step cfg → List (Action cfg)
  | .controller c => [.call c]
  | .foreign _ _ as => as

/-- Events of a sequence of actions (up to the first failing one). -/
def actionEvents {cfg : Cfg} (L : RatioLib) (tx : TxInfo) : World → List (Action cfg) → List (Event cfg)
  | _, [] => []
  | w, a :: as =>
    match a.run L tx w with
    | .ok w' => ⟨tx, w, a, w'⟩ :: actionEvents L tx w' as
    | .error _ => []

/-- Events of the instructions from position `i` on. -/
def stepEvents {cfg : Cfg} (L : RatioLib) (ixs : List TopIx) : Nat → World → List (Step cfg) → List (Event cfg)
  | _, _, [] => []
  | i, w, s :: ss =>
    match s.run L ⟨ixs, i⟩ w with
    | .ok w' => actionEvents L ⟨ixs, i⟩ w s.actions ++ stepEvents L ixs (i + 1) w' ss
    | .error _ => []

/-- Events of a transaction: none if it fails. -/
def Tx.events {cfg : Cfg} (L : RatioLib) (w : World) (t : Tx cfg) : List (Event cfg) :=
  match Tx.run L w t with
  | .ok _ => stepEvents L (List.map Step.top t) 0 w t
  | .error _ => []

/-- Committed events of a history, in order. -/
def historyEvents {cfg : Cfg} (L : RatioLib) : World → List (Tx cfg) → List (Event cfg)
  | _, [] => []
  | w, t :: h => Tx.events L w t ++ historyEvents L (Tx.apply L w t) h

/-- The event is a call of the controller with decoded instruction `ix` and accounts `accs`. -/
def Event.IsIx {cfg : Cfg} (e : Event cfg) (accs : List Acc) (ix : Ix) : Prop :=
  ∃ c : Call cfg, e.act = .call c ∧ c.accs = accs ∧ decodeIx c.data = .ok ix

/-- Account `k` signed the instruction. -/
def SignedBy (accs : List Acc) (k : Pubkey) : Prop := ∃ a ∈ accs, a.signer = true ∧ a.key = k

/-- Consecutive events leading from one state to another. -/
inductive Chain {cfg : Cfg} : World → List (Event cfg) → World → Prop
  | nil (w : World) : Chain w [] w
  | cons {w' : World} {e : Event cfg} {es : List (Event cfg)} (h : Chain e.post es w') : Chain e.pre (e :: es) w'

end S

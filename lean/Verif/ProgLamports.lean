import Verif.Lamports
import Verif.FlatFee.Program
import Verif.CalcPrograms
/-
Lamports moved by the flat-fee pricing program and by the SOL value calculators, beside the models of their instructions, as in `Lamports.lean` for the controller.
-/
set_option autoImplicit false
namespace S

/-- `program::STATE_SIZE`, libs/pricing-programs/flat-fee-lib/src/lib.rs:8. -/
def FLAT_STATE_SIZE : Nat := 34
/-- `program::FEE_ACCOUNT_SIZE`, libs/pricing-programs/flat-fee-lib/src/lib.rs:9. -/
def FEE_ACCOUNT_SIZE : Nat := 6
/-- `CALCULATOR_STATE_SIZE`, libs/sol-value-calculator-programs/generic-pool-calculator-lib/src/lib.rs:17. -/
def CALCULATOR_STATE_SIZE : Nat := 40

/-- The lamports the flat-fee program moves in an instruction accepted with its accounts being `F`: programs/pricing-programs/flat-fee/src/processor/initialize.rs:21-35
(payer, state), add_lst.rs:31-41 (payer at 1, fee account at 2) and remove_lst.rs:14-27 (`close_account`, refund account at 1, fee account at 2; the runtime refuses to take lamports
from an address the program does not own). The other instructions move none. -/
def flatLam (r : Rent) (F : FlatFee) (accs : List Acc) (lam : Lam) : FlatIx → R Lam
  | .initialize =>
    match accs with
    | payer :: state :: _ => topUp lam payer.key state.key (r.min FLAT_STATE_SIZE)
    | _ => .error .notEnoughAccountKeys
  | .addLst _ _ =>
    match accs with
    | _ :: payer :: feeAcc :: _ => topUp lam payer.key feeAcc.key (r.min FEE_ACCOUNT_SIZE)
    | _ => .error .notEnoughAccountKeys
  | .removeLst =>
    match accs with
    | _ :: refund :: feeAcc :: _ => do
      require (F.fees feeAcc.key ≠ none ∨ lam feeAcc.key = 0) .system
      closeLam lam feeAcc.key refund.key
    | _ => .error .notEnoughAccountKeys
  | _ => .ok lam

/-- The lamports a calculator moves: only `process_init_unchecked`, generic-pool-calculator-onchain/src/processor/init.rs:18-38 (payer, state). -/
def calcLam (r : Rent) (accs : List Acc) (lam : Lam) : CalcIx → R Lam
  | .init =>
    match accs with
    | payer :: state :: _ => topUp lam payer.key state.key (r.min CALCULATOR_STATE_SIZE)
    | _ => .error .notEnoughAccountKeys
  | _ => .ok lam

/-- The lamports along a history of accepted instructions of the flat-fee program, from its accounts `F` on. Between two instructions everybody else does what they like, except taking lamports
from the program's accounts (runtime rule); the program's addresses do not sign (they have no private keys). -/
inductive FlatLamRun (L : RatioLib) (r : Rent) {fc : FlatCfg} : FlatFee → Lam → List (FlatCall fc) → Lam → Prop
  | nil {F : FlatFee} {lam lam' : Lam} (h1 : F.state ≠ none → lam fc.stateId ≤ lam' fc.stateId) (h2 : ∀ k, F.fees k ≠ none → lam k ≤ lam' k) :
      FlatLamRun L r F lam [] lam'
  | cons {F F' : FlatFee} {lam lam1 lam2 lam' : Lam} {c : FlatCall fc} {cs : List (FlatCall fc)} {ix : FlatIx} {x : Option Nat}
      (h1 : F.state ≠ none → lam fc.stateId ≤ lam1 fc.stateId) (h2 : ∀ k, F.fees k ≠ none → lam k ≤ lam1 k)
      (hs : ∀ a ∈ c.accs, a.signer = true → a.key ≠ fc.stateId ∧ ∀ m, a.key ≠ (fc.findFee m).1)
      (hd : decodeFlatIx c.data = .ok ix) (hr : flatInstruction L c.view F fc.programId c.accs c.data = .ok (F', x))
      (hm : flatLam r F c.accs lam1 ix = .ok lam2) (h : FlatLamRun L r F' lam2 cs lam') : FlatLamRun L r F lam (c :: cs) lam'

/-- Likewise for a calculator. -/
inductive CalcLamRun (L : RatioLib) (r : Rent) (pc : PoolCfg) : Option CalcState → Lam → List CalcCall → Lam → Prop
  | nil {st : Option CalcState} {lam lam' : Lam} (h1 : st ≠ none → lam pc.stateId ≤ lam' pc.stateId) : CalcLamRun L r pc st lam [] lam'
  | cons {st st' : Option CalcState} {lam lam1 lam2 lam' : Lam} {c : CalcCall} {cs : List CalcCall} {ix : CalcIx} {x : Option Range}
      (h1 : st ≠ none → lam pc.stateId ≤ lam1 pc.stateId)
      (hs : ∀ a ∈ c.accs, a.signer = true → a.key ≠ pc.stateId)
      (hd : decodeCalcIx c.data = .ok ix) (hr : calcInstruction L pc c.chain st pc.programId c.accs c.data = .ok (st', x))
      (hm : calcLam r c.accs lam1 ix = .ok lam2) (h : CalcLamRun L r pc st' lam2 cs lam') : CalcLamRun L r pc st lam (c :: cs) lam'

end S

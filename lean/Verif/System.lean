import Verif.History
import Verif.CalcPrograms
import Verif.FlatFee.Program
/-
The programs of the repository together on one chain: the controller, the flat-fee and no-fee pricing programs, the five stake pool calculators and the
wrapped SOL calculator. The controller's questions to them are answered by them, from their accounts as they are at that moment; transactions mix
instructions of all of them and of foreign programs, and a failed transaction changes none of them.
-/
set_option autoImplicit false
namespace S

/-- Where the programs are deployed (`declare_id!` of every program, keys/*). -/
structure SysCfg where
  cfg : Cfg
  fc : FlatCfg
  /-- spl, sanctum-spl, sanctum-spl-multi, lido and marinade calculators -/
  pools : List PoolCfg
  wsolCalc : Pubkey
  wsolMint : Pubkey
  noFee : Pubkey
  distinct : (cfg.programId :: fc.programId :: noFee :: wsolCalc :: pools.map PoolCfg.programId).Nodup

/-- The state of the programs: the controller's accounts with the token ledger, and the instructions the flat-fee program and each calculator program (by program
id) have executed successfully since deployment, which determine their accounts. -/
structure Sys (sc : SysCfg) where
  world : World
  flatCalls : List (FlatCall sc.fc)
  calcCalls : Pubkey → List CalcCall

/-- The flat-fee program's accounts. -/
def Sys.flat {sc : SysCfg} (L : RatioLib) (s : Sys sc) : FlatFee := flatHistory L s.flatCalls

/-- The account of a calculator program. -/
def Sys.calc {sc : SysCfg} (L : RatioLib) (s : Sys sc) (pc : PoolCfg) : Option CalcState := calcHistory L pc (s.calcCalls pc.programId)

/-- What an instruction finds on the chain besides the accounts modelled: stake pools, program data, the clock; accounts the flat-fee program may be given;
the behaviour of programs that are not of this repository (calculators and pricing programs of others). -/
structure Outside (sc : SysCfg) where
  chain : OnChain
  view : FlatView sc.fc
  other : Env sc.cfg

/-- The request as an instruction of the calculator programs (`calc_understands`: the bytes sent decode to it). -/
def CalcReq.asIx : CalcReq → CalcIx
  | .lstToSol n => .lstToSol n
  | .solToLst n => .solToLst n

/-- The request as an instruction of the flat-fee program (`flat_understands`: the bytes sent decode to it). -/
def PriceReq.asIx : PriceReq → FlatIx
  | .exactIn a v => .priceExactIn a v
  | .exactOut a v => .priceExactOut a v
  | .lpTokensToMint a v => .priceLpTokensToMint a v
  | .lpTokensToRedeem a v => .priceLpTokensToRedeem a v

/-- The SOL value, the amount the no-fee pricing program answers (`C25_no_fee`). -/
def PriceReq.solValue : PriceReq → Nat
  | .exactIn _ v => v
  | .exactOut _ v => v
  | .lpTokensToMint _ v => v
  | .lpTokensToRedeem _ v => v

/-- The wrapped SOL calculator's answer, programs/sol-value-calculator-programs/wsol-calculator/src/lib.rs:17-44. -/
def wsolAnswer (wsolMint : Pubkey) (ms : List Acc) (q : CalcReq) : R Range :=
  match ms with
  | mint :: _ => do
    checkKeys [(mint.key, wsolMint)]
    match q with
    | .lstToSol n => wsolCalculator.lstToSol n
    | .solToLst n => wsolCalculator.solToLst n
  | [] => .error .notEnoughAccountKeys

/-- The answer of calculator program `p` when the controller asks it (programs/s-controller/src/cpi/sol_value_calculator.rs:28-101). -/
def Sys.answerCalc {sc : SysCfg} (L : RatioLib) (s : Sys sc) (o : Outside sc) (n : Nat) (w : World) (p : Pubkey) (ms : List Acc) (q : CalcReq) :
    R (Range × Ledger) :=
  if p = sc.wsolCalc then (wsolAnswer sc.wsolMint ms q).map (·, w.led)
  else
    match sc.pools.find? (fun pc => pc.programId = p) with
    | some pc =>
      match calcProcess L pc o.chain (s.calc L pc) ms q.asIx with
      | .ok (_, some r) => .ok (r, w.led)
      | .ok (_, none) => .error .decode
      | .error e => .error e
    | none => o.other.askCalc n w p ms q

/-- The answer of pricing program `p` when the controller asks it (programs/s-controller/src/cpi/pricing_program.rs:28-226). -/
def Sys.answerPrice {sc : SysCfg} (L : RatioLib) (s : Sys sc) (o : Outside sc) (n : Nat) (w : World) (p : Pubkey) (ms : List Acc) (q : PriceReq) :
    R (Nat × Ledger) :=
  if p = sc.fc.programId then
    match flatProcess L o.view (s.flat L) ms q.asIx with
    | .ok (_, some r) => .ok (r, w.led)
    | .ok (_, none) => .error .decode
    | .error e => .error e
  else if p = sc.noFee then .ok (q.solValue, w.led)
  else o.other.askPrice n w p ms q

theorem Sys.answerCalc_ext {sc : SysCfg} {L : RatioLib} {s : Sys sc} {o : Outside sc} {n : Nat} {w : World} {p : Pubkey} {ms : List Acc} {q : CalcReq}
    {r : Range} {l : Ledger} (h : s.answerCalc L o n w p ms q = .ok (r, l)) : w.led.ExtOk sc.cfg l := by
  unfold Sys.answerCalc at h
  split at h
  · cases hc : wsolAnswer sc.wsolMint ms q with
    | error e => rw [hc] at h; cases h
    | ok x => rw [hc] at h; injection h with h; injection h with _ h; subst h; exact .refl _ _
  · split at h
    · split at h
      · injection h with h; injection h with _ h; subst h; exact .refl _ _
      · cases h
      · cases h
    · exact o.other.calc_ext h

theorem Sys.answerPrice_ext {sc : SysCfg} {L : RatioLib} {s : Sys sc} {o : Outside sc} {n : Nat} {w : World} {p : Pubkey} {ms : List Acc} {q : PriceReq}
    {r : Nat} {l : Ledger} (h : s.answerPrice L o n w p ms q = .ok (r, l)) : w.led.ExtOk sc.cfg l := by
  unfold Sys.answerPrice at h
  split at h
  · split at h
    · injection h with h; injection h with _ h; subst h; exact .refl _ _
    · cases h
    · cases h
  · split at h
    · injection h with h; injection h with _ h; subst h; exact .refl _ _
    · exact o.other.price_ext h

/-- The programs around the controller while it executes an instruction. Simplification: a calculator or pricing program that is not of this repository does not call
the flat-fee program or a calculator of this repository back while the controller waits for its answer. -/
def Sys.env {sc : SysCfg} (L : RatioLib) (s : Sys sc) (o : Outside sc) : Env sc.cfg where
  askCalc := s.answerCalc L o
  askPrice := s.answerPrice L o
  calc_ext := Sys.answerCalc_ext
  price_ext := Sys.answerPrice_ext

/-- What happens on the chain: a change of the token ledger by a foreign program, or an instruction (at top level or by CPI) of one of the programs. -/
inductive SysAction (sc : SysCfg) : Type
  | ext (f : Ledger → Ledger) (ok : ∀ l : Ledger, l.ExtOk sc.cfg (f l))
  | controller (o : Outside sc) (accs : List Acc) (data : List UInt8)
  | flat (c : FlatCall sc.fc)
  | calc (pc : PoolCfg) (mem : pc ∈ sc.pools) (c : CalcCall)

def SysAction.run {sc : SysCfg} (L : RatioLib) (tx : TxInfo) (s : Sys sc) : SysAction sc → R (Sys sc)
  | .ext f _ => .ok { s with world := { s.world with led := f s.world.led } }
  | .controller o accs data => do
    let w ← Call.run L tx s.world ⟨s.env L o, accs, data⟩
    pure { s with world := w }
  | .flat c => do
    let _ ← flatInstruction L c.view (s.flat L) sc.fc.programId c.accs c.data
    pure { s with flatCalls := s.flatCalls ++ [c] }
  | .calc pc _ c => do
    let _ ← calcInstruction L pc c.chain (s.calc L pc) pc.programId c.accs c.data
    pure { s with calcCalls := upd s.calcCalls pc.programId (s.calcCalls pc.programId ++ [c]) }

/-- A top-level instruction: of the controller, or of any other program (the flat-fee program and the calculators included) with the actions it performs. -/
inductive SysStep (sc : SysCfg) : Type
  | controller (o : Outside sc) (accs : List Acc) (data : List UInt8)
  | foreign (ix : TopIx) (notController : ix.program ≠ sc.cfg.programId) (actions : List (SysAction sc))

def SysStep.top {sc : SysCfg} : SysStep sc → TopIx
  | .controller _ accs data => ⟨sc.cfg.programId, accs, data⟩
  | .foreign ix _ _ => ix

def SysStep.actions {sc : SysCfg} : SysStep sc → List (SysAction sc)
  | .controller o accs data => [.controller o accs data]
  | .foreign _ _ as => as

def runSysActions {sc : SysCfg} (L : RatioLib) (tx : TxInfo) : Sys sc → List (SysAction sc) → R (Sys sc)
  | s, [] => .ok s
  | s, a :: as => do
    let s ← a.run L tx s
    runSysActions L tx s as

abbrev SysTx (sc : SysCfg) : Type := List (SysStep sc)

def runSysSteps {sc : SysCfg} (L : RatioLib) (ixs : List TopIx) : Nat → Sys sc → List (SysStep sc) → R (Sys sc)
  | _, s, [] => .ok s
  | i, s, t :: ts => do
    let s ← runSysActions L ⟨ixs, i⟩ s t.actions
    runSysSteps L ixs (i + 1) s ts

def SysTx.run {sc : SysCfg} (L : RatioLib) (s : Sys sc) (t : SysTx sc) : R (Sys sc) := runSysSteps L (List.map SysStep.top t) 0 s t

/-- A failed transaction leaves everything unchanged. -/
def SysTx.apply {sc : SysCfg} (L : RatioLib) (s : Sys sc) (t : SysTx sc) : Sys sc :=
  match SysTx.run L s t with
  | .ok s' => s'
  | .error _ => s

def runSystem {sc : SysCfg} (L : RatioLib) (s : Sys sc) (h : List (SysTx sc)) : Sys sc := h.foldl (SysTx.apply L) s

/-- All programs just deployed: none has an account; tokens are arbitrary. -/
structure Sys.Fresh {sc : SysCfg} (s : Sys sc) : Prop where
  world : s.world.Fresh sc.cfg
  flat : s.flatCalls = []
  calcs : ∀ p, s.calcCalls p = []

/-! ### Committed events -/

structure SysEvent (sc : SysCfg) where
  tx : TxInfo
  pre : Sys sc
  act : SysAction sc
  post : Sys sc

def sysActionEvents {sc : SysCfg} (L : RatioLib) (tx : TxInfo) : Sys sc → List (SysAction sc) → List (SysEvent sc)
  | _, [] => []
  | s, a :: as =>
    match a.run L tx s with
    | .ok s' => ⟨tx, s, a, s'⟩ :: sysActionEvents L tx s' as
    | .error _ => []

def sysStepEvents {sc : SysCfg} (L : RatioLib) (ixs : List TopIx) : Nat → Sys sc → List (SysStep sc) → List (SysEvent sc)
  | _, _, [] => []
  | i, s, t :: ts =>
    match runSysActions L ⟨ixs, i⟩ s t.actions with
    | .ok s' => sysActionEvents L ⟨ixs, i⟩ s t.actions ++ sysStepEvents L ixs (i + 1) s' ts
    | .error _ => []

/-- Events of a transaction: none if it fails. -/
def SysTx.events {sc : SysCfg} (L : RatioLib) (s : Sys sc) (t : SysTx sc) : List (SysEvent sc) :=
  match SysTx.run L s t with
  | .ok _ => sysStepEvents L (List.map SysStep.top t) 0 s t
  | .error _ => []

/-- Committed events of a history of the system, in order. -/
def systemEvents {sc : SysCfg} (L : RatioLib) : Sys sc → List (SysTx sc) → List (SysEvent sc)
  | _, [] => []
  | s, t :: h => SysTx.events L s t ++ systemEvents L (SysTx.apply L s t) h

/-- The event is an instruction `ix` of the controller with accounts `accs`, with the rest of the chain as in `o`. -/
def SysEvent.IsIx {sc : SysCfg} (e : SysEvent sc) (o : Outside sc) (accs : List Acc) (ix : Ix) : Prop :=
  ∃ data, e.act = .controller o accs data ∧ decodeIx data = .ok ix

end S

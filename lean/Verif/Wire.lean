import Verif.System
/-
What passes between the controller and the programs it calls, as bytes: the instruction data sent, and the return data read back.
`PriceReq.encode` and `CalcReq.encode` (the data sent), `Range.encode` and `decodeRange` are defined with the programs.
-/
set_option autoImplicit false
namespace S

/-- Return data after a call (`get_return_data`): the program that set it last, and the bytes. The runtime clears it when a call begins. -/
abbrev Reply := Option (Pubkey × List UInt8)

/-- The data the controller sends to a calculator: `LstToSolIxData`/`SolToLstIxData` of
generated/sol-value-calculator-programs/sol_value_calculator_interface/src/instructions.rs (discriminators 0 and 1, then the amount), built in
programs/s-controller/src/cpi/sol_value_calculator.rs:103-127. -/
def CalcReq.bytes : CalcReq → List UInt8
  | .lstToSol n => 0 :: toLE 8 n
  | .solToLst n => 1 :: toLE 8 n

/-- `get_borsh_return_data::<u64>`, programs/s-controller/src/cpi/pricing_program.rs:112-117, 221-226 (`sanctum_misc_utils`: the return data, if any, are decoded as
little-endian bytes; the id of the program that set them is ignored). -/
def Reply.u64 : Reply → Option Nat
  | none => none
  | some (_, b) => (readLE 8 b).toOption.map (·.1)

/-- `get_borsh_return_data::<U64ValueRange>`, programs/s-controller/src/cpi/sol_value_calculator.rs:78-84. -/
def Reply.range : Reply → Option Range
  | none => none
  | some (_, b) => (decodeRange b).toOption

/-- `invoke_interface_ix` of the pricing program CPIs, programs/s-controller/src/cpi/pricing_program.rs:112-117, 221-226: `run` is the program called. -/
def cpiPrice (run : List Acc → List UInt8 → R Reply) (ms : List Acc) (q : PriceReq) : R Nat := do
  let reply ← run ms q.encode
  okOr reply.u64 .faultyPricingProgram

/-- `invoke_interface_ix` of the calculator CPI, programs/s-controller/src/cpi/sol_value_calculator.rs:78-84. -/
def cpiCalc (run : List Acc → List UInt8 → R Reply) (ms : List Acc) (q : CalcReq) : R Range := do
  let reply ← run ms q.bytes
  okOr reply.range .faultySolValueCalculator

/-- The programs of the repository that the controller calls, run on bytes: their `process_instruction` and the return data they set
(`set_return_data` in programs/pricing-programs/flat-fee/src/processor/price_*.rs, programs/pricing-programs/no-fee-pricing-program/src/lib.rs:36 and
libs/sol-value-calculator-programs/sol-value-calculator-onchain/src/lib.rs:26-31). `none` for programs that are not of this repository. -/
def Sys.program {sc : SysCfg} (L : RatioLib) (s : Sys sc) (o : Outside sc) (p : Pubkey) : Option (List Acc → List UInt8 → R Reply) :=
  if p = sc.wsolCalc then some fun ms d => do
    let r ← wsolInstruction sc.wsolCalc sc.wsolMint p ms d
    pure (some (p, r.encode))
  else if p = sc.fc.programId then some fun ms d => do
    let (_, r) ← flatInstruction L o.view (s.flat L) p ms d
    pure (r.map fun x => (p, toLE 8 x))
  else if p = sc.noFee then some fun _ d => do
    let r ← noFeeInstruction d
    pure (some (p, toLE 8 r))
  else
    (sc.pools.find? (fun pc => pc.programId = p)).map fun pc ms d => do
      let (_, r) ← calcInstruction L pc o.chain (s.calc L pc) p ms d
      pure (r.map fun x => (p, x.encode))

/-- The programs around the controller while it executes an instruction, as bytes: like `Sys.env`, but the programs of this repository are run on the instruction
data sent and their answers read from the return data. -/
def Sys.wireEnv {sc : SysCfg} (L : RatioLib) (s : Sys sc) (o : Outside sc) : Env sc.cfg where
  askCalc n w p ms q :=
    if p = sc.wsolCalc ∨ ∃ pc ∈ sc.pools, pc.programId = p then
      match s.program L o p with
      | some run => (cpiCalc run ms q).map (·, w.led)
      | none => .error .decode
    else o.other.askCalc n w p ms q
  askPrice n w p ms q :=
    if p = sc.fc.programId ∨ p = sc.noFee then
      match s.program L o p with
      | some run => (cpiPrice run ms q).map (·, w.led)
      | none => .error .decode
    else o.other.askPrice n w p ms q
  calc_ext := by
    intro n w p ms q r l h
    split at h
    · split at h
      · rename_i run _
        cases hx : cpiCalc run ms q with
        | error e => rw [hx] at h; cases h
        | ok x => rw [hx] at h; injection h with h; injection h with _ h; subst h; exact .refl _ _
      · cases h
    · exact o.other.calc_ext h
  price_ext := by
    intro n w p ms q r l h
    split at h
    · split at h
      · rename_i run _
        cases hx : cpiPrice run ms q with
        | error e => rw [hx] at h; cases h
        | ok x => rw [hx] at h; injection h with h; injection h with _ h; subst h; exact .refl _ _
      · cases h
    · exact o.other.price_ext h

end S

import Verif.Jup
import Verif.Props.FlatFee
import Verif.Props.Stored
/-
A concrete Jupiter cache for the example pool: LST 21 is wrapped SOL (program 31), LST 22 is the Lido token (program 32, 3 lamports for 2 tokens),
priced by the flat-fee program.
-/
set_option autoImplicit false
namespace S.Ex

/-- Token accounts and mints: the amount at offset 64, the supply at offset 36. -/
def jup : JupCfg where
  cfg := cfg
  fc := fc
  lido := ⟨.lido 22 700, 32, 701, 702, 703, 602, 11⟩
  lidoMint := 22
  lidoState := 700
  lido_kind := rfl
  marinade := ⟨.marinade 710 711, 712, 713, 714, 715, 602, 11⟩
  msolMint := 710
  marinadeState := 711
  marinade_kind := rfl
  spl k := match k with
    | .spl => ⟨.spl, 720, 721, 722, 723, 602, 11⟩
    | .sanctumSpl => ⟨.spl, 730, 731, 732, 733, 602, 11⟩
    | .sanctumSplMulti => ⟨.spl, 740, 741, 742, 743, 602, 11⟩
  spl_kind k := by cases k <;> rfl
  wsolProgram := 31
  wsolMint := 21
  balance b := if b.bytes.length = 165 then .ok (readAt b.bytes 64 8) else .error .token
  supply b := if b.bytes.length = 82 then .ok (readAt b.bytes 36 8) else .error .token

/-- The library's LST list. -/
def jupList : List SanctumLst := [⟨21, 8, .reservePool⟩, ⟨22, 8, .lido⟩, ⟨23, 8, .spl .spl 750⟩]

/-- A Lido account computed in epoch `e`, with 2 stSOL for 3 lamports. -/
def lidoBytes (e : Nat) : List UInt8 :=
  [1, 0] ++ List.replicate 32 0 ++ toLE 32 22 ++ toLE 8 e ++ toLE 8 2 ++ toLE 8 3 ++ List.replicate 400 0

def tokenBytes (l : Ledger) (k : Pubkey) : Option (List UInt8) :=
  (l.tok k).map fun a => List.replicate 64 0 ++ toLE 8 a.amount ++ List.replicate 93 0

def mintBytes (l : Ledger) (k : Pubkey) : Option (List UInt8) :=
  (l.mints k).map fun m => List.replicate 36 0 ++ toLE 8 m.supply ++ List.replicate 38 0

/-- What an RPC node returns for the state `w`. -/
def fetch (w : World) : AccMap := fun k =>
  if k = 1 then w.ctl.pool.map fun _ => ⟨8, (bytes w.ctl).pool⟩
  else if k = 2 then some ⟨8, (bytes w.ctl).lsts⟩
  else if k = 20 then (mintBytes w.led 20).map (⟨8, ·⟩)
  else if k = 300 then some ⟨8, toLE 32 305 ++ toLE 2 25⟩
  else if k = 1021 then some ⟨8, [254, 0] ++ toLE 2 30 ++ toLE 2 20⟩
  else if k = 1022 then some ⟨8, [254, 0] ++ toLE 2 40 ++ toLE 2 65526⟩
  else if k = 700 then some ⟨8, lidoBytes 0⟩
  else (tokenBytes w.led k).map (⟨8, ·⟩)

def fresh0 (w : World) : SPool :=
  match SPool.fromKeyed jup jupList 0 2 ⟨8, (bytes w.ctl).lsts⟩ with
  | .ok S => S
  | .error _ => ⟨⟨0, []⟩, none, none, none, [], 0⟩

/-- The cache after the two rounds of fetching the library needs. -/
def cache (w : World) : SPool := ((((fresh0 w).updateFull jup (fetch w)).1).updateFull jup (fetch w)).1

end S.Ex

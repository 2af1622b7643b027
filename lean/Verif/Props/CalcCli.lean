import Verif.CalcCli
import Verif.Props.CalcPrograms
import Verif.Proofs.Client
/-
C59: the commands of the stake pool calculators' manager.
-/
set_option autoImplicit false
namespace S

/-! ### Specification -/

/-- The pool a question is about: the given one (SPL) or the only one (Lido, Marinade). -/
def PoolCfg.poolAt (pc : PoolCfg) (pool : Pubkey) : Pubkey :=
  match pc.kind with
  | .spl => pool
  | .lido _ p | .marinade _ p => p

/-! ### Proofs -/

theorem fetchCalcManaged_ok {st : Option CalcState} {signer : Pubkey} {s : CalcState} :
    fetchCalcManaged st signer = .ok s ↔ st = some s ∧ s.manager = signer := by
  simp only [fetchCalcManaged, bind_ok, okOr_ok, require_ok, exists_const, pure_ok]
  constructor
  · rintro ⟨a, h1, h2, rfl⟩; exact ⟨h1, h2⟩
  · rintro ⟨h1, h2⟩; exact ⟨s, h1, h2, rfl⟩

theorem calc_one {L : RatioLib} {pc : PoolCfg} {ch : OnChain} {st : Option CalcState} {accs : List Acc} {ix : CalcIx} (hix : ix.Wf) :
    calcInstruction L pc ch st pc.programId accs ix.encode = calcProcess L pc ch st accs ix := by
  have h : decodeCalcIx ix.encode = .ok ix := decodeCalcIx_iff.2 ⟨hix, [], by simp⟩
  simp only [calcInstruction, require, if_true, h, bind, Except.bind]

section
variable {L : RatioLib} {pc : PoolCfg} {ch : OnChain} {st st' : Option CalcState} {signer : Pubkey} {ix : TopIx} {seen : List Acc} {r : Option Range}

/-- C59: `update-last-upgrade-slot` and `set-manager` go on only if they are given the manager's key (and, for the former, the code account of the given
program can be read); `init` only if there is no state yet. -/
theorem C59_refuses : (∀ progData prog, cmdUpdateSlot pc ch st progData signer prog = .ok ix → ∃ s, st = some s ∧ s.manager = signer) ∧
    (∀ new, (∃ ix, cmdCalcSetManager pc st signer new = .ok ix) ↔ ∃ s, st = some s ∧ s.manager = signer) ∧
    (∀ payer, (∃ ix, cmdCalcInit pc st payer = some ix) ↔ st = none) := by
  refine ⟨?_, ?_, ?_⟩
  · intro progData prog h
    simp only [cmdUpdateSlot, bind_ok, fetchCalcManaged_ok] at h
    obtain ⟨s, h, _⟩ := h
    exact ⟨s, h⟩
  · intro new
    simp only [cmdCalcSetManager, bind_ok, fetchCalcManaged_ok, pure_ok]
    constructor
    · rintro ⟨_, s, h, _⟩; exact ⟨s, h⟩
    · rintro ⟨s, h⟩; exact ⟨_, s, h, rfl⟩
  · intro payer
    cases st <;> simp [cmdCalcInit]

/-- C59, `update-last-upgrade-slot`: the instruction succeeds exactly if the given program is the calculator's stake pool program and the account the
command derived is where the loader says its code is; it then records the slot in which that code was deployed, and changes nothing else. -/
theorem C59_update {progData : Pubkey → Pubkey} {prog : Pubkey} (hc : cmdUpdateSlot pc ch st progData signer prog = .ok ix) (hseen : SeenAs ix.accs seen) :
    ix.program = pc.programId ∧ (calcInstruction L pc ch st ix.program seen ix.data = .ok (st', r) ↔
      prog = pc.poolProgram ∧ CodeAt ch prog (progData prog) ∧ r = none ∧
        ∃ s slot, st = some s ∧ DeployedAt ch (progData prog) slot ∧ st' = some { s with lastUpgradeSlot := slot }) := by
  simp only [cmdUpdateSlot, bind_ok, fetchCalcManaged_ok, pure_ok] at hc
  obtain ⟨s, ⟨hs, hm⟩, x, _, rfl⟩ := hc
  refine ⟨rfl, ?_⟩
  rw [calc_one (ix := .updateLastUpgradeSlot) trivial]
  obtain ⟨a1, _, rfl, ha1, hseen⟩ := SeenAs.cons_inv hseen
  obtain ⟨a2, _, rfl, ha2, hseen⟩ := SeenAs.cons_inv hseen
  obtain ⟨a3, _, rfl, ha3, hseen⟩ := SeenAs.cons_inv hseen
  obtain ⟨a4, _, rfl, ha4, hseen⟩ := SeenAs.cons_inv hseen
  have k1 : a1.key = signer := ha1.key
  have k2 : a2.key = pc.stateId := ha2.key
  have k3 : a3.key = prog := ha3.key
  have k4 : a4.key = progData prog := ha4.key
  have s1 := ha1.signer rfl
  have w2 := ha2.writable rfl
  simp only [calcProcess, calcUpdateSlot, bind_ok, okOr_ok, checkKeys_ok, checkWritable_ok, checkSigner_ok, require_ok, exists_const, pure_ok, hs,
    readProgramdataAddr_ok, Prod.exists, readProgdataMeta_ok, k1, k2, k3, k4, Prod.mk.injEq]
  constructor
  · rintro ⟨_, ⟨_, hp, s', h0, pd, hcode, hk, _, _, slot, auth, hd, rfl⟩, rfl, rfl⟩
    injection h0 with h0; subst h0
    have hpd : progData prog = pd := hk (progData prog, pd) (by simp)
    subst hpd
    exact ⟨hp, hcode, rfl, s, slot, rfl, readProgdataMeta_ok.1 ⟨auth, hd⟩, rfl⟩
  · rintro ⟨hp, hcode, rfl, s', slot, h0, hd, rfl⟩
    injection h0 with h0; subst h0
    obtain ⟨auth, hd⟩ := readProgdataMeta_ok.2 hd
    exact ⟨_, ⟨trivial, hp, s, rfl, _, hcode, by simp [hm, hp], by simp [w2], by simp [s1], slot, auth, hd, rfl⟩, rfl, rfl⟩

/-- C59, `set-manager`: the instruction succeeds and hands over to the new manager, changing nothing else. -/
theorem C59_setManager {new : Pubkey} (hc : cmdCalcSetManager pc st signer new = .ok ix) (hseen : SeenAs ix.accs seen) :
    ∃ s, st = some s ∧ calcInstruction L pc ch st ix.program seen ix.data = .ok (some { s with manager := new }, none) := by
  simp only [cmdCalcSetManager, bind_ok, fetchCalcManaged_ok, pure_ok] at hc
  obtain ⟨s, ⟨hs, hm⟩, rfl⟩ := hc
  refine ⟨s, hs, ?_⟩
  rw [calc_one (ix := .setManager) trivial]
  obtain ⟨a1, _, rfl, ha1, hseen⟩ := SeenAs.cons_inv hseen
  obtain ⟨a2, _, rfl, ha2, hseen⟩ := SeenAs.cons_inv hseen
  obtain ⟨a3, _, rfl, ha3, hseen⟩ := SeenAs.cons_inv hseen
  have k1 : a1.key = s.manager := ha1.key
  have k2 : a2.key = new := ha2.key
  have k3 : a3.key = pc.stateId := ha3.key
  have s1 := ha1.signer rfl
  have w3 := ha3.writable rfl
  simp only [calcProcess, calcSetManager, bind_ok, okOr_ok, checkKeys_ok, checkWritable_ok, checkSigner_ok, require_ok, exists_const, pure_ok, hs,
    k1, k2, k3, Prod.mk.injEq]
  exact ⟨_, ⟨trivial, s, rfl, by simp, by simp [w3], by simp [s1], rfl⟩, rfl, trivial⟩

/-- C59, `init`: the instruction succeeds and creates the state with the first manager and no acknowledged code. -/
theorem C59_init {payer : Pubkey} (hc : cmdCalcInit pc st payer = some ix) (hseen : SeenAs ix.accs seen) :
    calcInstruction L pc ch st ix.program seen ix.data = .ok (some ⟨pc.initialManager, 0⟩, none) := by
  cases st with
  | some s => cases hc
  | none =>
    injection hc with hc; subst hc
    rw [calc_one (ix := .init) trivial]
    obtain ⟨a1, _, rfl, ha1, hseen⟩ := SeenAs.cons_inv hseen
    obtain ⟨a2, _, rfl, ha2, hseen⟩ := SeenAs.cons_inv hseen
    obtain ⟨a3, _, rfl, ha3, hseen⟩ := SeenAs.cons_inv hseen
    have k2 : a2.key = pc.stateId := ha2.key
    have k3 : a3.key = pc.systemProgram := ha3.key
    have s1 := ha1.signer rfl
    have w1 := ha1.writable rfl
    have w2 := ha2.writable rfl
    simp only [calcProcess, calcInit, bind_ok, checkKeys_ok, checkWritable_ok, checkSigner_ok, require_ok, exists_const, pure_ok, k2, k3, Prod.mk.injEq]
    exact ⟨_, ⟨by simp, by simp [w1, w2], by simp [s1], trivial, rfl⟩, rfl, trivial⟩

/-- C59, `lst-to-sol` and `sol-to-lst`: a range is printed exactly if the pool is in order and its program's code is the acknowledged one, and it is the
range the calculator gives. -/
theorem C59_ask {pool : Pubkey} {q : CalcReq} {r : Range} (hq : q.amount < U64) :
    cmdAsk L pc ch st pool q = .ok r ↔ ∃ mint c s, UsablePool pc ch (pc.poolAt pool) mint c ∧ PoolCode pc ch pc.poolProgData ∧ st = some s ∧
      DeployedAt ch pc.poolProgData s.lastUpgradeSlot ∧ c.reply L q = .ok r := by
  have hdata : (match q with
    | .lstToSol n => (CalcIx.lstToSol n).encode
    | .solToLst n => (CalcIx.solToLst n).encode) = q.encode := by cases q <;> rfl
  simp only [cmdAsk, bind_ok, Prod.exists, okOr_ok, hdata]
  have hcall : ∀ mint pool', ((∃ a b, calcInstruction L pc ch st pc.programId
        [roMeta mint, roMeta pc.stateId, roMeta pool', roMeta pc.poolProgram, roMeta pc.poolProgData] q.encode = .ok (a, b) ∧ b = some r) ↔
      ∃ c s, UsablePool pc ch pool' mint c ∧ PoolCode pc ch pc.poolProgData ∧ st = some s ∧
        DeployedAt ch pc.poolProgData s.lastUpgradeSlot ∧ c.reply L q = .ok r) := by
    intro mint pool'
    constructor
    · rintro ⟨a, _, h, rfl⟩
      obtain ⟨_, _, m, p, pd, s, c, ⟨_, _, _, _, _, _, e, h1, h2, h3, h4, h5⟩, hu, hc, hs, hd, hr⟩ := (C28_answers hq).1 h
      simp only [List.cons.injEq] at e
      obtain ⟨rfl, rfl, rfl, rfl, rfl, _⟩ := e
      obtain rfl : mint = m := h1
      obtain rfl : pool' = p := h3
      obtain rfl : pc.poolProgData = pd := h5
      exact ⟨c, s, hu, hc, hs, hd, hr⟩
    · rintro ⟨c, s, hu, hc, hs, hd, hr⟩
      exact ⟨st, _, (C28_answers hq).2 ⟨rfl, rfl, mint, pool', pc.poolProgData, s, c, ⟨_, _, _, _, _, _, rfl, rfl, rfl, rfl, rfl, rfl⟩, hu, hc, hs, hd, hr⟩, rfl⟩
  unfold cmdAskMetas PoolCfg.poolAt
  cases hk : pc.kind with
  | spl =>
    simp only [bind_ok, Prod.exists, require_ok, exists_const, pure_ok, Prod.mk.injEq]
    constructor
    · rintro ⟨_, ⟨_, _, _, _, m, _, ⟨_, rfl⟩, rfl⟩, h⟩
      exact ⟨m, (hcall m pool).1 h⟩
    · rintro ⟨m, c, s, h⟩
      have hu := h.1
      unfold UsablePool at hu
      rw [hk] at hu
      obtain ⟨x, _, ho, hat, _⟩ := hu
      exact ⟨_, ⟨ho, m, x, readSplPool_ok.2 hat, m, pool, ⟨rfl, rfl⟩, rfl⟩, (hcall m pool).2 ⟨c, s, h⟩⟩
  | lido m p =>
    simp only [bind_ok, Prod.exists, pure_ok, Prod.mk.injEq]
    constructor
    · rintro ⟨_, ⟨m', p', ⟨rfl, rfl⟩, rfl⟩, h⟩
      exact ⟨m, (hcall m p).1 h⟩
    · rintro ⟨m', c, s, h⟩
      have hu := h.1
      unfold UsablePool at hu
      rw [hk] at hu
      obtain ⟨_, _, rfl, _⟩ := hu
      exact ⟨_, ⟨_, _, ⟨rfl, rfl⟩, rfl⟩, (hcall _ p).2 ⟨c, s, h⟩⟩
  | marinade m p =>
    simp only [bind_ok, Prod.exists, pure_ok, Prod.mk.injEq]
    constructor
    · rintro ⟨_, ⟨m', p', ⟨rfl, rfl⟩, rfl⟩, h⟩
      exact ⟨m, (hcall m p).1 h⟩
    · rintro ⟨m', c, s, h⟩
      have hu := h.1
      unfold UsablePool at hu
      rw [hk] at hu
      obtain ⟨_, _, rfl, _⟩ := hu
      exact ⟨_, ⟨_, _, ⟨rfl, rfl⟩, rfl⟩, (hcall _ p).2 ⟨c, s, h⟩⟩

/-- C59: after an upgrade of the stake pool program, the manager's `update-last-upgrade-slot` brings the calculator back: the command goes on, its
instruction succeeds, and then every pool in order is priced again. -/
theorem C59_restored {progData : Pubkey → Pubkey} {s : CalcState} {slot : Nat} (hs : st = some s)
    (hpda : progData pc.poolProgram = pc.poolProgData) (hcode : CodeAt ch pc.poolProgram pc.poolProgData) (hd : DeployedAt ch pc.poolProgData slot) :
    ∃ ix, cmdUpdateSlot pc ch st progData s.manager pc.poolProgram = .ok ix ∧ ∀ seen, SeenAs ix.accs seen →
      calcInstruction L pc ch st ix.program seen ix.data = .ok (some { s with lastUpgradeSlot := slot }, none) ∧
      ∀ pool mint c q r, q.amount < U64 → UsablePool pc ch (pc.poolAt pool) mint c → c.reply L q = .ok r →
        cmdAsk L pc ch (some { s with lastUpgradeSlot := slot }) pool q = .ok r := by
  have hmeta : ∃ x, readProgdataMeta ((ch.data pc.poolProgData).take 45) = .ok x := by
    obtain ⟨auth, h⟩ := readProgdataMeta_ok.2 hd
    refine ⟨(slot, auth), ?_⟩
    unfold readProgdataMeta at h ⊢
    split at h
    · cases h
    · rename_i hl
      rw [if_neg (by rw [List.length_take]; omega), List.take_take, Nat.min_self]
      exact h
  obtain ⟨x, hx⟩ := hmeta
  have hcmd : cmdUpdateSlot pc ch st progData s.manager pc.poolProgram = .ok ⟨pc.programId,
      [sgMeta s.manager, wrMeta pc.stateId, roMeta pc.poolProgram, roMeta (progData pc.poolProgram)], CalcIx.updateLastUpgradeSlot.encode⟩ := by
    simp only [cmdUpdateSlot, bind_ok, fetchCalcManaged_ok, pure_ok]
    exact ⟨s, ⟨hs, rfl⟩, x, by rw [hpda]; exact hx, trivial⟩
  refine ⟨_, hcmd, fun seen hseen => ⟨?_, ?_⟩⟩
  · exact ((C59_update hcmd hseen).2).2 ⟨rfl, by rw [hpda]; exact hcode, rfl, s, slot, hs, by rw [hpda]; exact hd, rfl⟩
  · intro pool mint c q r hq hu hr
    refine (C59_ask hq).2 ⟨mint, c, _, hu, ?_, rfl, hd, hr⟩
    unfold PoolCode
    cases hk : pc.kind with
    | spl => exact hcode
    | lido m p => rfl
    | marinade m p => rfl

end

/-! ### Concretely

With the mainnet accounts of the fixtures: the SPL stake pool program has been upgraded in slot 300000000, which the calculator's state (manager 603)
does not show yet. -/
namespace Ex
open Fix

def loaderPda (k : Pubkey) : Pubkey := if k = splProg.1 then splProgData.1 else 0

def calcSt : Option CalcState := calcHistory .ex spl (setup spl (chain 539))

theorem upgraded_code : CodeAt (upgraded 539) spl.poolProgram spl.poolProgData := readProgramdataAddr_ok.1 (by decide +kernel)

theorem upgraded_slot : DeployedAt (upgraded 539) spl.poolProgData 300000000 := by
  have h : (readProgdataMeta ((upgraded 539).data spl.poolProgData)).toOption.map Prod.fst = some 300000000 := by decide +kernel
  cases hx : readProgdataMeta ((upgraded 539).data spl.poolProgData) with
  | error e => rw [hx] at h; cases h
  | ok x =>
    rw [hx] at h
    injection h with h
    exact readProgdataMeta_ok.1 ⟨x.2, by rw [hx, ← h]⟩

/-- All hypotheses of `C59_restored` hold. -/
example : ∃ ix, cmdUpdateSlot spl (upgraded 539) calcSt loaderPda 603 spl.poolProgram = .ok ix ∧ ∀ seen, SeenAs ix.accs seen →
    calcInstruction .ex spl (upgraded 539) calcSt ix.program seen ix.data = .ok (some ⟨603, 300000000⟩, none) := by
  have hs : calcSt = some ⟨603, 238419616⟩ := by decide +kernel
  obtain ⟨ix, h1, h2⟩ := C59_restored (L := .ex) (progData := loaderPda) hs (by decide +kernel) upgraded_code upgraded_slot
  exact ⟨ix, h1, fun seen hseen => (h2 seen hseen).1⟩

/-- The answers of `lst-to-sol` for the JitoSOL pool: before the upgrade, after it, and after the manager's acknowledgement. -/
example : (cmdAsk .ex spl (chain 539) calcSt jitoPool.1 (.lstToSol 1000000000)).toOption = some (Range.single 1072326756) ∧
    (cmdAsk .ex spl (upgraded 539) calcSt jitoPool.1 (.lstToSol 1000000000)).toOption = none ∧
    (cmdAsk .ex spl (upgraded 539) (some ⟨603, 300000000⟩) jitoPool.1 (.lstToSol 1000000000)).toOption = some (Range.single 1072326756) := by
  decide +kernel

example : (cmdCalcSetManager spl calcSt 603 604).isOk = true ∧ (cmdCalcSetManager spl calcSt 602 604).isOk = false ∧
    (cmdCalcInit spl none 40).isSome = true ∧ (cmdCalcInit spl calcSt 40) = none := by decide +kernel

end Ex

end S

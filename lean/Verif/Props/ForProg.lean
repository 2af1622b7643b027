import Verif.ForProg
import Verif.Props.CliRoute
import Verif.Props.AdminCli
/-!
C97: instructions built for another deployment (`--program`). The four builders that compute the reserves with the constants of the default deployment
give, for the default deployment itself, the instructions C42 and C43 are about; for a deployment whose pool is another account, the instruction they
give is one that deployment never accepts: whatever its state, whoever signs, and whatever other programs do, nothing is read from or moved on the
default pool's reserves.
-/
set_option autoImplicit false
namespace S

/-! ### Specification -/

/-- `P` is a deployment of the same program with a pool of its own (associated token addresses are derived in the same way). -/
structure OtherDeployment (D P : Cfg) : Prop where
  ata : P.ata = D.ata
  pool : P.poolState ≠ D.poolState

/-- The deployment `P` rejects the instruction in every state and every transaction. -/
def Refuses (P : Cfg) (ix : TopIx) : Prop := ∀ (L : RatioLib) (w : World), Results P L w ix (fun _ => False)

/-! ### Proofs -/

variable {D P : Cfg} {lsts : List LstState}

/-- Reserves of the default deployment are never the reserves of an entry at `P`. -/
theorem OtherDeployment.no_sel (h : OtherDeployment D P) {s s' : LstState} {tp mint res : Pubkey} {w : World} {i : Nat} {mint' tp' : Pubkey}
    (hd : D.ata D.poolState tp s.mint mint = some res) (hs : LstSel P w i mint' tp' res s') : False := by
  have e := hs.res_eq
  rw [h.ata] at e
  exact h.pool (D.ata_inj e hd).1

/-- C97. For the deployment the library was compiled for, the builders are the ones of C42 and C43. -/
theorem C97_same (D : Cfg) (pool : PoolState) (lsts : List LstState) :
    (∀ mint metas, syncFor D D lsts mint metas = syncByMint D lsts mint metas) ∧
      (∀ refund mint, removeLstFor D D pool lsts refund mint = removeLstByMint D pool lsts refund mint) ∧
      (∀ mint calculator, setCalcFor D D pool lsts mint calculator = setCalcByMint D pool lsts mint calculator) ∧
      (∀ to_ src dst amts sm dm, startRebalanceFor D D pool lsts to_ src dst amts sm dm = startRebalanceByMints D pool lsts to_ src dst amts sm dm) :=
  ⟨fun _ _ => rfl, fun _ _ => rfl, fun _ _ => rfl, fun _ _ _ _ _ _ => rfl⟩

/-- C97, SyncSolValue. -/
theorem C97_sync (hd : OtherDeployment D P) {mint : MintAcc} {metas : List Acc} {ix : TopIx}
    (h : syncFor D P lsts mint metas = .ok ix) : Refuses P ix := by
  simp only [syncFor, resolveSyncFor, syncIx, bind_ok, Prod.exists, findLst_ok, poolReserves_ok, pure_ok, indexToU32_ok, extendOne_ok, Prod.mk.injEq] at h
  obtain ⟨k, i, c, ⟨_, s, -, res, hres, rfl, rfl, rfl⟩, i', ⟨hi, rfl⟩, accs, n, ⟨-, rfl, rfl⟩, rfl⟩ := h
  intro L w env tx seen w' hseen
  refine ⟨fun hp => ?_, False.elim⟩
  rw [processInstruction_of_decode _ _ _ _ _ (C38_roundtrip _ (show (Ix.syncSolValue i').Wf from hi))] at hp
  obtain ⟨r⟩ := processSync_inv hp
  obtain ⟨a', suf', hl', hk, -⟩ := seen_sync hseen
  have e := r.load; rw [hl'] at e; injection e with e; injection e with e1 e2
  have k1 : r.a.poolReserves.key = res := by
    rw [← e1]; exact hk.at (i := 3) rfl rfl
  exact hd.no_sel hres (k1 ▸ r.sel)

/-- C97, RemoveLst. -/
theorem C97_removeLst (hd : OtherDeployment D P) {pool : PoolState} {refund : Pubkey} {mint : MintAcc} {ix : TopIx}
    (h : removeLstFor D P pool lsts refund mint = .ok ix) : Refuses P ix := by
  simp only [removeLstFor, resolveRemoveLstFor, bind_ok, Prod.exists, findLst_ok, poolReserves_ok, feeAccumulator_ok, require_ok, exists_const, pure_ok,
    Prod.mk.injEq] at h
  obtain ⟨k, i, ⟨i', s, -, res, hres, fee, -, hi, rfl, rfl⟩, rfl⟩ := h
  intro L w env tx seen w' hseen
  refine ⟨fun hp => ?_, False.elim⟩
  rw [processInstruction_of_decode _ _ _ _ _ (C38_roundtrip _ (show (Ix.removeLst i').Wf from hi))] at hp
  obtain ⟨r⟩ := processRemoveLst_inv hp
  have hl := r.load
  obtain ⟨r0, t0, rfl, x0, s0⟩ := hseen.cons_inv
  obtain ⟨r1, t1, rfl, x1, s1⟩ := s0.cons_inv
  obtain ⟨r2, t2, rfl, x2, s2⟩ := s1.cons_inv
  obtain ⟨r3, t3, rfl, x3, s3⟩ := s2.cons_inv
  obtain ⟨r4, t4, rfl, x4, s4⟩ := s3.cons_inv
  obtain ⟨r5, t5, rfl, x5, s5⟩ := s4.cons_inv
  obtain ⟨r6, t6, rfl, x6, s6⟩ := s5.cons_inv
  obtain ⟨r7, t7, rfl, x7, s7⟩ := s6.cons_inv
  obtain ⟨r8, t8, rfl, x8, s8⟩ := s7.cons_inv
  have k1 : r.a.poolReserves.key = res := by
    simp only [RemoveLstAccs.load, Except.ok.injEq] at hl
    rw [← hl]; exact x3.key
  exact hd.no_sel hres (k1 ▸ r.sel)

/-- C97, SetSolValueCalculator. -/
theorem C97_setCalc (hd : OtherDeployment D P) {pool : PoolState} {mint : MintAcc} {calculator : Callee} {ix : TopIx}
    (h : setCalcFor D P pool lsts mint calculator = .ok ix) : Refuses P ix := by
  simp only [setCalcFor, resolveSetCalcFor, setCalcIx, bind_ok, Prod.exists, findLst_ok, poolReserves_ok, pure_ok, indexToU32_ok, extendOne_ok,
    Prod.mk.injEq] at h
  obtain ⟨k, i, ⟨_, s, -, res, hres, rfl, rfl⟩, i', ⟨hi, rfl⟩, accs, n, ⟨-, rfl, rfl⟩, rfl⟩ := h
  intro L w env tx seen w' hseen
  refine ⟨fun hp => ?_, False.elim⟩
  rw [processInstruction_of_decode _ _ _ _ _ (C38_roundtrip _ (show (Ix.setSolValueCalculator i').Wf from hi))] at hp
  obtain ⟨r⟩ := processSetSolValueCalculator_inv hp
  obtain ⟨a', suf', hl', hk, -⟩ := seen_setCalc hseen
  have e := r.load; rw [hl'] at e; injection e with e; injection e with e1 e2
  have k1 : r.a.poolReserves.key = res := by
    rw [← e1]; exact hk.at (i := 3) rfl rfl
  exact hd.no_sel hres (k1 ▸ r.sel)

/-- C97, StartRebalance (the amounts are u64s). -/
theorem C97_start (hd : OtherDeployment D P) {pool : PoolState} {to_ : Pubkey} {src dst : MintAcc} {amts : StartAmts} {sm dm : List Acc} {ix : TopIx}
    (hu : amts.amount < 2 ^ 64 ∧ amts.minStartingSrcLst < 2 ^ 64 ∧ amts.maxStartingDstLst < 2 ^ 64)
    (h : startRebalanceFor D P pool lsts to_ src dst amts sm dm = .ok ix) : Refuses P ix := by
  simp only [startRebalanceFor, resolveStartFor, startRebalanceIx, bind_ok, Prod.exists, findLst_ok, poolReserves_ok, pure_ok, indexToU32_ok,
    extendSrcDst_ok, Prod.mk.injEq] at h
  obtain ⟨k, f, ⟨_, s, -, res, hres, _, d, -, dres, -, rfl, rfl⟩, i', ⟨hi, rfl⟩, j', ⟨hj, rfl⟩, accs, n, m, ⟨hn, -, rfl, rfl, rfl⟩, rfl⟩ := h
  intro L w env tx seen w' hseen
  refine ⟨fun hp => ?_, False.elim⟩
  dsimp only at hp
  rw [overwrite_same (encode_length_start _ _)] at hp
  rw [processInstruction_of_decode _ _ _ _ _ (C38_roundtrip _ (show (Ix.startRebalance
    ⟨sm.length, i', j', amts.amount, amts.minStartingSrcLst, amts.maxStartingDstLst⟩).Wf from
    ⟨Nat.lt_of_le_of_lt hn (by decide), hi, hj, hu.1, hu.2.1, hu.2.2⟩))] at hp
  obtain ⟨r⟩ := processStartRebalance_inv hp
  dsimp only at hseen
  rw [List.append_assoc] at hseen
  obtain ⟨a', suf', hl', hk, -⟩ := seen_start hseen
  have e := r.load; rw [hl'] at e; injection e with e; injection e with e1 e2
  have k1 : r.a.srcPoolReserves.key = res := by
    rw [← e1]; exact hk.at (i := 6) rfl rfl
  exact hd.no_sel hres (k1 ▸ r.srcSel)

/-! The instruction goes to the program asked for and is the one that deployment's own constants would give, except for the reserves and the fee accumulator, which are the
default pool's: that is all that is wrong with it. -/

/-- C97, what is wrong with SyncSolValue: the reserves, account 3. -/
theorem C97_sync_wrong {mint : MintAcc} {metas : List Acc} {ix ix' : TopIx} (h : syncFor D P lsts mint metas = .ok ix) (h' : syncByMint P lsts mint metas = .ok ix') :
    ix.program = P.programId ∧ ix.data = ix'.data ∧
      ∃ bump res, D.ata D.poolState mint.owner mint.key bump = some res ∧ ix.accs = ix'.accs.set 3 (roMeta res) := by
  simp only [syncFor, resolveSyncFor, syncByMint, resolveSync, syncIx, bind_ok, Prod.exists, poolReserves_ok, pure_ok, indexToU32_ok, extendOne_ok, Prod.mk.injEq] at h h'
  obtain ⟨k, i, c, ⟨a1, s, hf, res, hres, rfl, rfl, rfl⟩, i', ⟨hi, rfl⟩, accs, n, ⟨-, rfl, rfl⟩, rfl⟩ := h
  obtain ⟨k', j, c', ⟨b1, s', hf', res', hres', rfl, rfl, rfl⟩, j', ⟨hj, rfl⟩, accs', n', ⟨-, rfl, rfl⟩, rfl⟩ := h'
  rw [hf] at hf'; cases hf'
  have hm := (findLst_ok.1 hf).2.1
  exact ⟨rfl, rfl, _, res, by rw [← hm]; exact hres, rfl⟩

/-- C97, what is wrong with RemoveLst: the reserves and the fee accumulator, accounts 3 and 4. -/
theorem C97_removeLst_wrong {pool : PoolState} {refund : Pubkey} {mint : MintAcc} {ix ix' : TopIx} (h : removeLstFor D P pool lsts refund mint = .ok ix)
    (h' : removeLstByMint P pool lsts refund mint = .ok ix') :
    ix.program = P.programId ∧ ix.data = ix'.data ∧ ∃ bump bump' res fee, D.ata D.poolState mint.owner mint.key bump = some res ∧
      D.ata D.protocolFee mint.owner mint.key bump' = some fee ∧ ix.accs = (ix'.accs.set 3 (wrMeta res)).set 4 (wrMeta fee) := by
  simp only [removeLstFor, resolveRemoveLstFor, removeLstByMint, resolveRemoveLst, bind_ok, Prod.exists, poolReserves_ok, feeAccumulator_ok, require_ok, exists_const,
    pure_ok, Prod.mk.injEq] at h h'
  obtain ⟨k, i, ⟨_, s, hf, res, hres, fee, hfee, hi, rfl, rfl⟩, rfl⟩ := h
  obtain ⟨k', j, ⟨_, s', hf', res', hres', fee', hfee', hj, rfl, rfl⟩, rfl⟩ := h'
  rw [hf] at hf'; cases hf'
  have hm := (findLst_ok.1 hf).2.1
  exact ⟨rfl, rfl, _, _, res, fee, by rw [← hm]; exact hres, by rw [← hm]; exact hfee, rfl⟩

/-- C97, what is wrong with SetSolValueCalculator: the reserves, account 3. -/
theorem C97_setCalc_wrong {pool : PoolState} {mint : MintAcc} {calculator : Callee} {ix ix' : TopIx} (h : setCalcFor D P pool lsts mint calculator = .ok ix)
    (h' : setCalcByMint P pool lsts mint calculator = .ok ix') :
    ix.program = P.programId ∧ ix.data = ix'.data ∧
      ∃ bump res, D.ata D.poolState mint.owner mint.key bump = some res ∧ ix.accs = ix'.accs.set 3 (roMeta res) := by
  simp only [setCalcFor, resolveSetCalcFor, setCalcByMint, resolveSetCalc, setCalcIx, bind_ok, Prod.exists, poolReserves_ok, pure_ok, indexToU32_ok, extendOne_ok,
    Prod.mk.injEq] at h h'
  obtain ⟨k, i, ⟨_, s, hf, res, hres, rfl, rfl⟩, i', ⟨hi, rfl⟩, accs, n, ⟨-, rfl, rfl⟩, rfl⟩ := h
  obtain ⟨k', j, ⟨_, s', hf', res', hres', rfl, rfl⟩, j', ⟨hj, rfl⟩, accs', n', ⟨-, rfl, rfl⟩, rfl⟩ := h'
  rw [hf] at hf'; cases hf'
  have hm := (findLst_ok.1 hf).2.1
  exact ⟨rfl, rfl, _, res, by rw [← hm]; exact hres, rfl⟩

/-- C97, what is wrong with StartRebalance: the reserves of both LSTs, accounts 6 and 7. -/
theorem C97_start_wrong {pool : PoolState} {to_ : Pubkey} {src dst : MintAcc} {amts : StartAmts} {sm dm : List Acc} {ix ix' : TopIx}
    (h : startRebalanceFor D P pool lsts to_ src dst amts sm dm = .ok ix) (h' : startRebalanceByMints P pool lsts to_ src dst amts sm dm = .ok ix') :
    ix.program = P.programId ∧ ix.data = ix'.data ∧ ∃ bump bump' sr dr, D.ata D.poolState src.owner src.key bump = some sr ∧
      D.ata D.poolState dst.owner dst.key bump' = some dr ∧ ix.accs = (ix'.accs.set 6 (wrMeta sr)).set 7 (wrMeta dr) := by
  simp only [startRebalanceFor, resolveStartFor, startRebalanceByMints, resolveStart, startRebalanceIx, bind_ok, Prod.exists, poolReserves_ok, pure_ok, indexToU32_ok,
    extendSrcDst_ok, Prod.mk.injEq] at h h'
  obtain ⟨k, f, ⟨_, s, hf, sr, hsr, _, d, hg, dr, hdr, rfl, rfl⟩, i', ⟨hi, rfl⟩, j', ⟨hj, rfl⟩, accs, n, m, ⟨hn, -, rfl, rfl, rfl⟩, rfl⟩ := h
  obtain ⟨k', f', ⟨_, s', hf', sr', hsr', _, d', hg', dr', hdr', rfl, rfl⟩, i'', ⟨hi', rfl⟩, j'', ⟨hj', rfl⟩, accs', n', m', ⟨hn', -, rfl, rfl, rfl⟩, rfl⟩ := h'
  rw [hf] at hf'; cases hf'
  rw [hg] at hg'; cases hg'
  have hm := (findLst_ok.1 hf).2.1
  have hm' := (findLst_ok.1 hg).2.1
  exact ⟨rfl, rfl, _, _, sr, dr, by rw [← hm]; exact hsr, by rw [← hm']; exact hdr, rfl⟩

/-! ### Non-vacuity -/

namespace Ex

/-- A second deployment of the example, with other addresses. -/
def cfg2 : Cfg := { cfg with
  programId := 113, poolState := 101, lstStateList := 102, disablePoolAuthorityList := 103, rebalanceRecord := 104, protocolFee := 105,
  pool_ne_fee := by decide }

theorem other2 : OtherDeployment cfg cfg2 := ⟨rfl, by decide⟩

/-- All four builders give an instruction for the second deployment, and it differs from the one its own constants would give. -/
theorem built2 :
    (syncFor cfg cfg2 (st 7).ctl.lsts ⟨21, 8⟩ [roMeta 21]).toOption.isSome ∧
      ((st 7).ctl.pool.bind fun p => (removeLstFor cfg cfg2 p (st 7).ctl.lsts 40 ⟨21, 8⟩).toOption).isSome ∧
      ((st 7).ctl.pool.bind fun p => (setCalcFor cfg cfg2 p (st 7).ctl.lsts ⟨21, 8⟩ ⟨31, [roMeta 21]⟩).toOption).isSome ∧
      ((st 7).ctl.pool.bind fun p =>
        (startRebalanceFor cfg cfg2 p (st 7).ctl.lsts 41 ⟨21, 8⟩ ⟨22, 8⟩ ⟨5, 0, 100⟩ [roMeta 21] [roMeta 22]).toOption).isSome ∧
      (syncFor cfg cfg2 (st 7).ctl.lsts ⟨21, 8⟩ [roMeta 21]).toOption.map TopIx.accs ≠
        (syncByMint cfg2 (st 7).ctl.lsts ⟨21, 8⟩ [roMeta 21]).toOption.map TopIx.accs := by
  decide +kernel

/-- The second deployment's own constants give an instruction too, in all four cases. -/
theorem own2 :
    (syncByMint cfg2 (st 7).ctl.lsts ⟨21, 8⟩ [roMeta 21]).toOption.isSome ∧
      ((st 7).ctl.pool.bind fun p => (removeLstByMint cfg2 p (st 7).ctl.lsts 40 ⟨21, 8⟩).toOption).isSome ∧
      ((st 7).ctl.pool.bind fun p => (setCalcByMint cfg2 p (st 7).ctl.lsts ⟨21, 8⟩ ⟨31, [roMeta 21]⟩).toOption).isSome ∧
      ((st 7).ctl.pool.bind fun p =>
        (startRebalanceByMints cfg2 p (st 7).ctl.lsts 41 ⟨21, 8⟩ ⟨22, 8⟩ ⟨5, 0, 100⟩ [roMeta 21] [roMeta 22]).toOption).isSome := by
  decide +kernel

end Ex

end S

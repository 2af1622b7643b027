import Verif.Props.CalcCli
import Verif.Props.JupSystem
import Verif.Props.AdminCli
import Verif.Props.FlatCli

/-!
C106: the instructions the client library builds ask for no signature but that of the party acting, and for write access to nothing but the accounts the
instruction is about. The accounts of the calculators and of the pricing program are passed on with the flags the caller gave them.
-/

set_option autoImplicit false

namespace S

/-- What an instruction asks for: apart from accounts `given` by the caller, only keys in `signers` have to sign and only keys in `writable` may be changed. -/
def Asks (ix : TopIx) (given : List Acc) (signers writable : List Pubkey) : Prop :=
  ∀ a ∈ ix.accs, a ∈ given ∨ ((a.signer = true → a.key ∈ signers) ∧ (a.writable = true → a.key ∈ writable))

section
variable {cfg : Cfg} {lsts : List LstState} {pool : PoolState} {ix : TopIx}

/-! ### Proofs -/

theorem asks_ro (given : List Acc) (signers writable : List Pubkey) (k : Pubkey) :
    roMeta k ∈ given ∨ (((roMeta k).signer = true → (roMeta k).key ∈ signers) ∧ ((roMeta k).writable = true → (roMeta k).key ∈ writable)) :=
  .inr ⟨fun h => by simp [roMeta] at h, fun h => by simp [roMeta] at h⟩

/-- The flags of the fixed accounts, then a program and accounts given. -/
theorem asks_suffix {base metas given : List Acc} {signers writable : List Pubkey} {prog : Pubkey} {n : Nat}
    (hb : ∀ a ∈ base, a ∈ given ∨ ((a.signer = true → a.key ∈ signers) ∧ (a.writable = true → a.key ∈ writable))) (hm : ∀ a ∈ metas, a ∈ given) :
    ∀ a ∈ base ++ roMeta prog :: metas.drop n, a ∈ given ∨ ((a.signer = true → a.key ∈ signers) ∧ (a.writable = true → a.key ∈ writable)) := by
  intro a ha
  simp only [List.mem_append, List.mem_cons] at ha
  rcases ha with ha | rfl | ha
  · exact hb a ha
  · exact asks_ro _ _ _ _
  · exact .inl (hm a (List.mem_of_mem_drop ha))

/-! ### C106, the controller -/

/-- SyncSolValue: nobody signs; the pool's two accounts are written. -/
theorem C106_sync {mint : MintAcc} {metas : List Acc} (h : syncByMint cfg lsts mint metas = .ok ix) : Asks ix metas [] [cfg.poolState, cfg.lstStateList] := by
  simp only [syncByMint, resolveSync, syncIx, bind_ok, Prod.exists, pure_ok, indexToU32_ok, extendOne_ok, Prod.mk.injEq] at h
  obtain ⟨k, i, c, ⟨_, s, -, res, -, rfl, rfl, rfl⟩, i', ⟨-, rfl⟩, accs, n, ⟨-, rfl, rfl⟩, rfl⟩ := h
  exact asks_suffix (by simp [SyncKeys.metas, roMeta, wrMeta]) fun _ h => h

/-- The accounts of a swap that change: the user's two, the pool's reserves of the two LSTs, the fee accumulator of the LST bought, the pool's records. -/
def SwapWrites (cfg : Cfg) (r : SwapRequest) (ws : List Pubkey) : Prop :=
  ∃ b₁ b₂ b₃ sr dr fee, cfg.ata cfg.poolState r.src.owner r.src.key b₁ = some sr ∧ cfg.ata cfg.poolState r.dst.owner r.dst.key b₂ = some dr ∧
    cfg.ata cfg.protocolFee r.dst.owner r.dst.key b₃ = some fee ∧ ws = [r.srcAcc, r.dstAcc, fee, cfg.poolState, cfg.lstStateList, sr, dr]

theorem asks_swap {r : SwapRequest} {sr dr fee : Pubkey} {p q : Pubkey} :
    ∀ a ∈ (SwapKeys.metas ⟨r.signer, r.src.key, r.dst.key, r.srcAcc, r.dstAcc, fee, r.src.owner, r.dst.owner, cfg.poolState, cfg.lstStateList, sr, dr⟩ ++
        roMeta p :: r.srcMetas.drop 1 ++ roMeta q :: r.dstMetas.drop 1) ++ roMeta r.pricing.program :: r.pricing.metas.drop 2,
      a ∈ r.srcMetas ++ r.dstMetas ++ r.pricing.metas ∨ ((a.signer = true → a.key ∈ [r.signer]) ∧
        (a.writable = true → a.key ∈ [r.srcAcc, r.dstAcc, fee, cfg.poolState, cfg.lstStateList, sr, dr])) := by
  refine asks_suffix (asks_suffix (asks_suffix (by simp [SwapKeys.metas, roMeta, wrMeta, sgMeta]) ?_) ?_) ?_ <;> intro a ha <;> simp [ha]

/-- SwapExactIn: the user signs. -/
theorem C106_swapExactIn {r : SwapRequest} {m n : Nat} (h : swapExactInByMint cfg lsts r m n = .ok ix) :
    ∃ ws, SwapWrites cfg r ws ∧ Asks ix (r.srcMetas ++ r.dstMetas ++ r.pricing.metas) [r.signer] ws := by
  simp only [swapExactInByMint, resolveSwap, swapExactInIx, bind_ok, Prod.exists, pure_ok, indexToU32_ok, extendSrcDst_ok, extendSwap_ok, poolReserves_ok,
    feeAccumulator_ok, findLst_ok, Prod.mk.injEq] at h
  obtain ⟨k, f, ⟨_, s, ⟨-, hs, -⟩, sr, hsr, _, d, ⟨-, hd, -⟩, dr, hdr, fee, hfee, rfl, rfl⟩, i', ⟨-, rfl⟩, j', ⟨-, rfl⟩, accs, n1, n2, ⟨-, -, rfl, rfl, rfl⟩, accs', n3, ⟨-, -, rfl, rfl⟩, rfl⟩ := h
  exact ⟨_, ⟨_, _, _, sr, dr, fee, by rw [← hs]; exact hsr, by rw [← hd]; exact hdr, by rw [← hd]; exact hfee, rfl⟩, asks_swap⟩

/-- SwapExactOut: the user signs. -/
theorem C106_swapExactOut {r : SwapRequest} {m n : Nat} (h : swapExactOutByMint cfg lsts r m n = .ok ix) :
    ∃ ws, SwapWrites cfg r ws ∧ Asks ix (r.srcMetas ++ r.dstMetas ++ r.pricing.metas) [r.signer] ws := by
  simp only [swapExactOutByMint, resolveSwap, swapExactOutIx, bind_ok, Prod.exists, pure_ok, indexToU32_ok, extendSrcDst_ok, extendSwap_ok, poolReserves_ok,
    feeAccumulator_ok, findLst_ok, Prod.mk.injEq] at h
  obtain ⟨k, f, ⟨_, s, ⟨-, hs, -⟩, sr, hsr, _, d, ⟨-, hd, -⟩, dr, hdr, fee, hfee, rfl, rfl⟩, i', ⟨-, rfl⟩, j', ⟨-, rfl⟩, accs, n1, n2, ⟨-, -, rfl, rfl, rfl⟩, accs', n3, ⟨-, -, rfl, rfl⟩, rfl⟩ := h
  exact ⟨_, ⟨_, _, _, sr, dr, fee, by rw [← hs]; exact hsr, by rw [← hd]; exact hdr, by rw [← hd]; exact hfee, rfl⟩, asks_swap⟩

/-- The accounts of a deposit or redemption that change: the user's two, the LP mint, the reserves and fee accumulator of the LST, the pool's records. -/
def LiqWrites (cfg : Cfg) (pool : PoolState) (r : LiqRequest) (ws : List Pubkey) : Prop :=
  ∃ b₁ b₂ res fee, cfg.ata cfg.poolState r.mint.owner r.mint.key b₁ = some res ∧ cfg.ata cfg.protocolFee r.mint.owner r.mint.key b₂ = some fee ∧
    ws = [r.userLst, r.userLp, pool.lpTokenMint, fee, cfg.poolState, cfg.lstStateList, res]

theorem asks_liq {r : LiqRequest} {res fee lp : Pubkey} {p q : Pubkey} :
    ∀ a ∈ (LiqKeys.metas ⟨r.signer, r.mint.key, r.userLst, r.userLp, lp, fee, r.mint.owner, cfg.splToken, cfg.poolState, cfg.lstStateList, res⟩ ++
        roMeta p :: r.calcMetas.drop 1) ++ roMeta q :: r.priceMetas.drop 1,
      a ∈ r.calcMetas ++ r.priceMetas ∨ ((a.signer = true → a.key ∈ [r.signer]) ∧
        (a.writable = true → a.key ∈ [r.userLst, r.userLp, lp, fee, cfg.poolState, cfg.lstStateList, res])) := by
  refine asks_suffix (asks_suffix (by simp [LiqKeys.metas, roMeta, wrMeta, sgMeta]) ?_) ?_ <;> intro a ha <;> simp [ha]

/-- AddLiquidity: the user signs. -/
theorem C106_addLiquidity {r : LiqRequest} {m n : Nat} (h : addLiquidityByMint cfg pool lsts r m n = .ok ix) :
    ∃ ws, LiqWrites cfg pool r ws ∧ Asks ix (r.calcMetas ++ r.priceMetas) [r.signer] ws := by
  simp only [addLiquidityByMint, resolveLiq, addLiquidityIx, bind_ok, Prod.exists, pure_ok, indexToU32_ok, extendOne_ok, poolReserves_ok, feeAccumulator_ok, findLst_ok,
    Prod.mk.injEq] at h
  obtain ⟨k, i, c, p, ⟨_, s, ⟨-, hs, -⟩, res, hres, fee, hfee, rfl, rfl, rfl, rfl⟩, i', ⟨-, rfl⟩, accs, n1, ⟨-, rfl, rfl⟩, accs', n2, ⟨-, rfl, rfl⟩, rfl⟩ := h
  exact ⟨_, ⟨_, _, res, fee, by rw [← hs]; exact hres, by rw [← hs]; exact hfee, rfl⟩, asks_liq⟩

/-- RemoveLiquidity: the user signs. -/
theorem C106_removeLiquidity {r : LiqRequest} {m n : Nat} (h : removeLiquidityByMint cfg pool lsts r m n = .ok ix) :
    ∃ ws, LiqWrites cfg pool r ws ∧ Asks ix (r.calcMetas ++ r.priceMetas) [r.signer] ws := by
  simp only [removeLiquidityByMint, resolveLiq, removeLiquidityIx, bind_ok, Prod.exists, pure_ok, indexToU32_ok, extendOne_ok, poolReserves_ok, feeAccumulator_ok,
    findLst_ok, Prod.mk.injEq] at h
  obtain ⟨k, i, c, p, ⟨_, s, ⟨-, hs, -⟩, res, hres, fee, hfee, rfl, rfl, rfl, rfl⟩, i', ⟨-, rfl⟩, accs, n1, ⟨-, rfl, rfl⟩, accs', n2, ⟨-, rfl, rfl⟩, rfl⟩ := h
  exact ⟨_, ⟨_, _, res, fee, by rw [← hs]; exact hres, by rw [← hs]; exact hfee, rfl⟩, asks_liq⟩

/-- The admin's instructions on an LST: the admin signs; for DisableLstInput, EnableLstInput and SetSolValueCalculator the pool's records are written, for RemoveLst the
accounts that are closed, their authority, the account the rent goes to and the list. -/
theorem C106_admin : (∀ {d : Bool} {mint : Pubkey}, lstInputByMint cfg pool lsts d mint = .ok ix → Asks ix [] [pool.admin] [cfg.poolState, cfg.lstStateList]) ∧
    (∀ {mint : MintAcc} {c : Callee}, setCalcByMint cfg pool lsts mint c = .ok ix → Asks ix c.metas [pool.admin] [cfg.poolState, cfg.lstStateList]) ∧
    (∀ {refund : Pubkey} {mint : MintAcc}, removeLstByMint cfg pool lsts refund mint = .ok ix → ∃ b₁ b₂ res fee,
      cfg.ata cfg.poolState mint.owner mint.key b₁ = some res ∧ cfg.ata cfg.protocolFee mint.owner mint.key b₂ = some fee ∧
      Asks ix [] [pool.admin] [refund, res, fee, cfg.protocolFee, cfg.lstStateList]) := by
  refine ⟨?_, ?_, ?_⟩
  · intro d mint h
    simp only [lstInputByMint, resolveInput, bind_ok, Prod.exists, pure_ok, Prod.mk.injEq] at h
    obtain ⟨k, i, ⟨_, s, -, rfl, rfl⟩, i', -, rfl⟩ := h
    simp [Asks, InputKeys.metas, roMeta, wrMeta, sgMeta]
  · intro mint c h
    simp only [setCalcByMint, resolveSetCalc, setCalcIx, bind_ok, Prod.exists, pure_ok, indexToU32_ok, extendOne_ok, Prod.mk.injEq] at h
    obtain ⟨k, i, ⟨_, s, -, res, -, rfl, rfl⟩, i', ⟨-, rfl⟩, accs, n, ⟨-, rfl, rfl⟩, rfl⟩ := h
    exact asks_suffix (by simp [SetCalcKeys.metas, roMeta, wrMeta, sgMeta]) fun _ h => h
  · intro refund mint h
    simp only [removeLstByMint, resolveRemoveLst, bind_ok, Prod.exists, poolReserves_ok, feeAccumulator_ok, findLst_ok, require_ok, exists_const, pure_ok, Prod.mk.injEq] at h
    obtain ⟨k, i, ⟨_, s, ⟨-, hs, -⟩, res, hres, fee, hfee, -, rfl, rfl⟩, rfl⟩ := h
    exact ⟨_, _, res, fee, by rw [← hs]; exact hres, by rw [← hs]; exact hfee, by simp [Asks, RemoveLstKeys.metas, roMeta, wrMeta, sgMeta]⟩

/-- StartRebalance: the rebalance authority signs; the pool's records, the record of the rebalance, the reserves of the two LSTs and the account the tokens go to are
written. -/
theorem C106_start {to_ : Pubkey} {src dst : MintAcc} {amts : StartAmts} {sm dm : List Acc} (h : startRebalanceByMints cfg pool lsts to_ src dst amts sm dm = .ok ix) :
    ∃ b₁ b₂ sr dr, cfg.ata cfg.poolState src.owner src.key b₁ = some sr ∧ cfg.ata cfg.poolState dst.owner dst.key b₂ = some dr ∧
      Asks ix (sm ++ dm) [pool.rebalanceAuthority] [cfg.poolState, cfg.lstStateList, cfg.rebalanceRecord, sr, dr, to_] := by
  simp only [startRebalanceByMints, resolveStart, startRebalanceIx, bind_ok, Prod.exists, poolReserves_ok, findLst_ok, pure_ok, indexToU32_ok, extendSrcDst_ok,
    Prod.mk.injEq] at h
  obtain ⟨k, f, ⟨_, s, ⟨-, hs, -⟩, sr, hsr, _, d, ⟨-, hd, -⟩, dr, hdr, rfl, rfl⟩, i', ⟨-, rfl⟩, j', ⟨-, rfl⟩, accs, n, m, ⟨-, -, rfl, rfl, rfl⟩, rfl⟩ := h
  refine ⟨_, _, sr, dr, by rw [← hs]; exact hsr, by rw [← hd]; exact hdr, asks_suffix (asks_suffix (by simp [StartKeys.metas, roMeta, wrMeta, sgMeta]) ?_) ?_⟩ <;>
    intro a ha <;> simp [ha]

end

/-! ### C106, the administrator's tool -/

/-- Commands of the admin, of the rebalance authority and of the beneficiary on the pool's state: the key given as signer signs, and only the pool's state is written. -/
theorem C106_poolCmds {cfg : Cfg} {w : World} {ix : TopIx} {signer new : Pubkey} {args : SetProtocolFeeArgs}
    (h : AdminCli.setAdmin cfg w signer new = .ok ix ∨ AdminCli.setProtocolFee cfg w signer args = .ok ix ∨ AdminCli.setBeneficiary cfg w signer new = .ok ix ∨
      AdminCli.setPricing cfg w signer new = .ok ix ∨ AdminCli.setRebAuth cfg w signer new = .ok ix ∨ AdminCli.enablePool cfg w signer = .ok ix ∨
      AdminCli.disablePool cfg w signer = .ok ix) : Asks ix [] [signer] [cfg.poolState] := by
  rcases h with h | h | h | h | h | h | h <;>
    simp only [AdminCli.setAdmin, AdminCli.setProtocolFee, AdminCli.setBeneficiary, AdminCli.setPricing, AdminCli.setRebAuth, AdminCli.enablePool,
      AdminCli.disablePool, fetchPool, fetchAdmin_ok, fetchAdminOrAuth_ok, bind_ok, okOr_ok, require_ok, exists_const, pure_ok] at h
  · obtain ⟨p, ⟨-, rfl⟩, rfl⟩ := h; simp [Asks, roMeta, wrMeta, sgMeta]
  · obtain ⟨p, ⟨-, rfl⟩, rfl⟩ := h; simp [Asks, wrMeta, sgMeta]
  · obtain ⟨p, -, rfl, rfl⟩ := h; simp [Asks, roMeta, wrMeta, sgMeta]
  · obtain ⟨p, ⟨-, rfl⟩, rfl⟩ := h; simp [Asks, roMeta, wrMeta, sgMeta]
  · obtain ⟨p, -, k, hk, rfl⟩ := h
    have : k = signer := by
      unfold AdminCli.rebAuthKey at hk
      split at hk
      · next e => cases hk; exact e
      · split at hk
        · next e => cases hk; exact e
        · cases hk
    simp [Asks, roMeta, wrMeta, sgMeta, this]
  · obtain ⟨p, ⟨-, rfl⟩, rfl⟩ := h; simp [Asks, wrMeta, sgMeta]
  · obtain ⟨p, -, rfl⟩ := h; simp [Asks, roMeta, wrMeta, sgMeta]

/-- The list of disable-pool authorities: adding is signed by the admin and the payer and writes the payer's account and the list; removing is signed by the key given
and writes the list and the account the rent goes to. -/
theorem C106_authCmds {cfg : Cfg} {w : World} {ix : TopIx} {signer k : Pubkey} :
    (∀ {payer : Pubkey}, AdminCli.addAuth cfg w signer payer k = .ok ix → Asks ix [] [payer, signer] [payer, cfg.disablePoolAuthorityList]) ∧
    (∀ {refund : Pubkey}, AdminCli.removeAuth cfg w signer refund k = .ok ix → Asks ix [] [signer] [refund, cfg.disablePoolAuthorityList]) := by
  refine ⟨?_, ?_⟩
  · intro payer h
    simp only [AdminCli.addAuth, fetchAdmin_ok, bind_ok, pure_ok] at h
    obtain ⟨p, ⟨-, rfl⟩, rfl⟩ := h
    simp [Asks, roMeta, wrMeta, sgMeta]
  · intro refund h
    simp only [AdminCli.removeAuth, removeAuthByPubkey, resolveRemoveAuth, fetchAdminOrAuth_ok, bind_ok, Prod.exists, require_ok, exists_const, pure_ok, Prod.mk.injEq] at h
    obtain ⟨p, -, -, _, _, ⟨_, _, -, _, -, rfl, rfl⟩, rfl⟩ := h
    simp [Asks, RemoveAuthKeys.metas, roMeta, wrMeta, sgMeta]

/-- Listing an LST: the admin and the payer sign; the payer's account, the two token accounts created, their authority and the list are written. `init`: the
payer and the initial authority sign; the payer's account, the pool's state and the LP mint are written. -/
theorem C106_setup {cfg : Cfg} {w : World} {ix : TopIx} {signer payer mint : Pubkey} :
    (∀ {calculator : Pubkey}, AdminCli.addLst cfg w signer payer mint calculator = .ok ix → ∃ m, w.led.mints mint = some m ∧ Asks ix [] [signer, payer]
      [payer, (cfg.findAta cfg.poolState m.program mint).1, (cfg.findAta cfg.protocolFee m.program mint).1, cfg.protocolFee, cfg.lstStateList]) ∧
    Asks (AdminCli.init cfg signer payer mint) [] [payer, signer] [payer, cfg.poolState, mint] := by
  refine ⟨?_, ?_⟩
  · intro calculator h
    simp only [AdminCli.addLst, fetchAdmin_ok, bind_ok, okOr_ok, pure_ok] at h
    obtain ⟨m, hm, p, ⟨-, rfl⟩, rfl⟩ := h
    exact ⟨m, hm, by simp [Asks, roMeta, wrMeta, sgMeta]⟩
  · simp [AdminCli.init, Asks, roMeta, wrMeta, sgMeta]

/-- Withdrawing fees: every instruction sent is signed by the beneficiary and the payer at most; the payer's account, the account withdrawn to, the fee accumulator of the
LST, its authority and the pool's state are all that is written. -/
theorem C106_withdraw {cfg : Cfg} {w : World} {ixs : List TopIx} {signer payer mint prog : Pubkey} {to_ : Option Pubkey} {amt : Option Nat}
    (h : AdminCli.withdraw cfg w signer payer mint prog to_ amt = .ok ixs) : ∀ ix ∈ ixs, Asks ix [] [payer, signer]
      [payer, to_.getD (cfg.findAta signer prog mint).1, (cfg.findAta cfg.protocolFee prog mint).1, cfg.protocolFee, cfg.poolState] := by
  simp only [AdminCli.withdraw, fetchPool, bind_ok, okOr_ok, require_ok, exists_const, pure_ok] at h
  obtain ⟨p, -, acc, -, rfl, create, hc, rfl⟩ := h
  have ht : (AdminCli.withdrawTarget cfg p.protocolFeeBeneficiary mint prog to_).1 = to_.getD (cfg.findAta p.protocolFeeBeneficiary prog mint).1 := by
    cases to_ <;> rfl
  have hst : (AdminCli.withdrawTarget cfg p.protocolFeeBeneficiary mint prog to_).2 ≠ .payer ∧
      ((AdminCli.withdrawTarget cfg p.protocolFeeBeneficiary mint prog to_).2 = .beneficiary →
        to_.getD (cfg.findAta p.protocolFeeBeneficiary prog mint).1 = (cfg.findAta p.protocolFeeBeneficiary prog mint).1) := by
    cases to_ with
    | none => exact ⟨nofun, fun _ => rfl⟩
    | some k =>
      simp only [AdminCli.withdrawTarget, Option.getD_some]
      split
      · next e => exact ⟨nofun, fun _ => e⟩
      · exact ⟨nofun, nofun⟩
  intro ix hix
  rcases List.mem_append.1 hix with hix | hix
  · generalize hs : (AdminCli.withdrawTarget cfg p.protocolFeeBeneficiary mint prog to_).2 = st at hst hc
    generalize w.led.tok (AdminCli.withdrawTarget cfg p.protocolFeeBeneficiary mint prog to_).1 = t at hc
    cases t with
    | some t => simp only [AdminCli.withdrawCreate] at hc; cases hc; cases hix
    | none =>
      cases st with
      | neither => cases hc
      | payer => exact absurd rfl hst.1
      | beneficiary =>
        simp only [AdminCli.withdrawCreate] at hc
        cases hc
        simp only [List.mem_singleton] at hix
        subst hix
        simp [Asks, AdminCli.createAtaIx, roMeta, wrMeta, hst.2 rfl]
  · simp only [List.mem_singleton] at hix
    subst hix
    simp [Asks, roMeta, wrMeta, sgMeta, ht]

/-! ### C106, the flat-fee manager's tool -/

/-- The manager signs (and the payer, when an account is created); only the account concerned, the payer's and the account the rent goes to are written. -/
theorem C106_flat {fc : FlatCfg} {F : FlatFee} {signer : Pubkey} {ixs : List TopIx} :
    (∀ {mint : Pubkey} {i o : Int}, cmdSetLstFee fc F signer mint i o = .ok ixs → ∀ ix ∈ ixs, Asks ix [] [signer] [(fc.findFee mint).1]) ∧
    (∀ {payer mint : Pubkey} {i o : Int}, cmdAddLst fc F signer payer mint i o = .ok ixs → ∀ ix ∈ ixs, Asks ix [] [signer, payer] [payer, (fc.findFee mint).1]) ∧
    (∀ {refund mint : Pubkey}, cmdRemoveLst fc F signer refund mint = .ok ixs → ∀ ix ∈ ixs, Asks ix [] [signer] [refund, (fc.findFee mint).1]) ∧
    (∀ {new : Pubkey}, cmdSetManager fc F signer new = .ok ixs → ∀ ix ∈ ixs, Asks ix [] [signer] [fc.stateId]) ∧
    (∀ {bps : Nat}, cmdSetLpFee fc F signer bps = .ok ixs → ∀ ix ∈ ixs, Asks ix [] [signer] [fc.stateId]) ∧
    (∀ ix ∈ cmdInitialize fc signer, Asks ix [] [signer] [signer, fc.stateId]) := by
  refine ⟨?_, ?_, ?_, ?_, ?_, ?_⟩ <;> intros <;>
    first
    | (rename_i h ix hix
       simp only [cmdSetLstFee, cmdAddLst, cmdRemoveLst, cmdSetManager, cmdSetLpFee, fetchManaged, bind_ok, okOr_ok, require_ok, exists_const, pure_ok] at h
       obtain ⟨s, ⟨_, -, rfl, rfl⟩, rfl⟩ := h
       simp only [List.mem_singleton] at hix
       subst hix
       simp [Asks, setLstFeeIx, roMeta, wrMeta, sgMeta])
    | (rename_i ix hix
       simp only [cmdInitialize, List.mem_singleton] at hix
       subst hix
       simp [Asks, roMeta, wrMeta])

theorem mapM_mem {α β : Type} {f : α → R β} : ∀ {l : List α} {bs : List β}, l.mapM f = .ok bs → ∀ b ∈ bs, ∃ a ∈ l, f a = .ok b
  | [], bs, h => by rw [List.mapM_nil] at h; cases h; nofun
  | a :: l, bs, h => by
    rw [List.mapM_cons] at h
    simp only [bind_ok, pure_ok] at h
    obtain ⟨b, hb, bs', hbs, rfl⟩ := h
    intro x hx
    rcases List.mem_cons.1 hx with rfl | hx
    · exact ⟨a, List.mem_cons_self, hb⟩
    · obtain ⟨a', h1, h2⟩ := mapM_mem hbs x hx
      exact ⟨a', List.mem_cons_of_mem _ h1, h2⟩

/-- The batch command: the manager signs every instruction, and only fee accounts that were fetched are written. -/
theorem C106_batch {fc : FlatCfg} {accs : List (Pubkey × FlatData)} {i o : Int} {ixs : List TopIx} (h : cmdBatchSetFees fc accs i o = .ok ixs) :
    ∃ s, (fc.stateId, .state s) ∈ accs ∧ ∀ ix ∈ ixs, ∃ k f, (k, FlatData.fee f) ∈ accs ∧ Asks ix [] [s.manager] [k] := by
  simp only [cmdBatchSetFees, bind_ok, okOr_ok, pure_ok] at h
  obtain ⟨⟨k, d⟩, h1, s, h2, fees, h3, rfl⟩ := h
  have hk : k = fc.stateId := by simpa using List.find?_some h1
  have hm := List.mem_of_find?_eq_some h1
  cases d with
  | fee f => cases h2
  | state s' =>
    cases h2
    refine ⟨s, hk ▸ hm, fun ix hix => ?_⟩
    obtain ⟨⟨q, f⟩, hx, rfl⟩ := List.mem_map.1 hix
    obtain ⟨⟨q', d'⟩, ha, hb⟩ := mapM_mem h3 _ (List.mem_of_mem_filter hx)
    cases d' with
    | state s' => cases hb
    | fee f' =>
      cases hb
      exact ⟨_, _, List.mem_of_mem_eraseIdx ha, by simp [Asks, setLstFeeIx, roMeta, wrMeta, sgMeta]⟩

/-! ### C106, the calculators' tool -/

/-- The manager's two commands: the manager signs and the calculator's state is written. `init`: the payer signs and pays, and the state is written. -/
theorem C106_calc {pc : PoolCfg} {ch : OnChain} {st : Option CalcState} {ix : TopIx} :
    (∀ {f : Pubkey → Pubkey} {signer prog : Pubkey}, cmdUpdateSlot pc ch st f signer prog = .ok ix → Asks ix [] [signer] [pc.stateId]) ∧
    (∀ {signer new : Pubkey}, cmdCalcSetManager pc st signer new = .ok ix → Asks ix [] [signer] [pc.stateId]) ∧
    (∀ {payer : Pubkey}, cmdCalcInit pc st payer = some ix → Asks ix [] [payer] [payer, pc.stateId]) := by
  refine ⟨?_, ?_, ?_⟩
  · intro f signer prog h
    simp only [cmdUpdateSlot, bind_ok, pure_ok] at h
    obtain ⟨_, -, _, -, rfl⟩ := h
    simp [Asks, roMeta, wrMeta, sgMeta]
  · intro signer new h
    simp only [cmdCalcSetManager, bind_ok, fetchCalcManaged_ok, pure_ok] at h
    obtain ⟨s, ⟨-, hm⟩, rfl⟩ := h
    simp [Asks, roMeta, wrMeta, sgMeta, hm]
  · intro payer h
    cases st with
    | some s => cases h
    | none => injection h with h; subst h; simp [Asks, roMeta, wrMeta]

/-- Asking a calculator needs no signature and no write access. -/
theorem C106_ask {pc : PoolCfg} {ch : OnChain} {pool : Pubkey} {ms : List Acc} (h : cmdAskMetas pc ch pool = .ok ms) :
    ∀ a ∈ ms, a.signer = false ∧ a.writable = false := by
  unfold cmdAskMetas at h
  split at h <;> simp only [bind_ok, Prod.exists, require_ok, exists_const, pure_ok, Prod.mk.injEq] at h
  · obtain ⟨-, _, _, -, _, _, -, rfl⟩ := h; simp [roMeta]
  · obtain ⟨_, _, -, rfl⟩ := h; simp [roMeta]
  · obtain ⟨_, _, -, rfl⟩ := h; simp [roMeta]

/-! ### Not vacuous -/

namespace Ex

/-- The instructions exist in the example's pool, and a wrong flag would be noticed. -/
theorem privs_built :
    (swapExactInByMint cfg (st 7).ctl.lsts ⟨40, 41, 42, ⟨21, 8⟩, ⟨22, 8⟩, [roMeta 21], [roMeta 22], ⟨7, [roMeta 21, roMeta 22]⟩⟩ 1 100).toOption.isSome ∧
    ((st 7).ctl.pool.bind fun p => (removeLiquidityByMint cfg p (st 7).ctl.lsts ⟨40, 41, 43, ⟨21, 8⟩, [roMeta 21], [roMeta 21]⟩ 100 1).toOption).isSome ∧
    ((st 7).ctl.pool.bind fun p => (addLiquidityByMint cfg p (st 7).ctl.lsts ⟨40, 41, 43, ⟨21, 8⟩, [roMeta 21], [roMeta 21]⟩ 100 1).toOption).isSome ∧
    ((st 7).ctl.pool.bind fun p => (lstInputByMint cfg p (st 7).ctl.lsts true 21).toOption).isSome ∧
    ((st 7).ctl.pool.bind fun p => (startRebalanceByMints cfg p (st 7).ctl.lsts 41 ⟨21, 8⟩ ⟨22, 8⟩ ⟨5, 0, 100⟩ [roMeta 21] [roMeta 22]).toOption).isSome := by
  decide +kernel

/-- The administrator's, the beneficiary's and the flat-fee manager's commands build instructions in the examples. -/
theorem privs_cmds :
    (AdminCli.setPricing cfg (st 7) 6 77).toOption.isSome ∧ (AdminCli.enablePool cfg (st 7) 6).toOption.isSome ∧ (AdminCli.addAuth cfg (st 7) 6 40 78).toOption.isSome ∧
    (cmdSetLstFee fc flat 305 22 1 2).toOption.isSome ∧ (cmdAddLst fc flat 305 40 23 1 2).toOption.isSome ∧ (cmdBatchSetFees fc progAccs 30 20).toOption.isSome := by
  decide +kernel

/-- The list of accounts to be written is not slack: `setPricing` does ask for the signature and for write access to the pool's state. -/
example : ∃ ix, AdminCli.setPricing cfg (st 7) 6 77 = .ok ix ∧ Asks ix [] [6] [cfg.poolState] ∧ ¬ Asks ix [] [] [cfg.poolState] ∧ ¬ Asks ix [] [6] [] := by
  have h : (AdminCli.setPricing cfg (st 7) 6 77).toOption = some ⟨cfg.programId, [sgMeta 6, roMeta 77, wrMeta cfg.poolState], Ix.setPricingProgram.encode⟩ := by
    decide +kernel
  cases h' : AdminCli.setPricing cfg (st 7) 6 77 with
  | error e => rw [h'] at h; cases h
  | ok ix =>
    rw [h'] at h
    cases h
    exact ⟨_, rfl, C106_poolCmds (args := ⟨none, none⟩) (.inr (.inr (.inr (.inl h')))), by simp [Asks, roMeta, wrMeta, sgMeta], by simp [Asks, roMeta, wrMeta, sgMeta]⟩

end Ex
end S

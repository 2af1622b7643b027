import Verif.AdminCli
import Verif.Props.Client
import Verif.Props.Data
import Verif.Proofs.AdminRuns
import Verif.Proofs.History
import Verif.Proofs.LiveRun
import Verif.Props.Canonical
import Verif.Props.Sync
/-
C60: the administrative commands of the controller's command-line tool.
-/
set_option autoImplicit false
namespace S

/-! ### Specification -/

/-- The controller, receiving `ix` in state `w` — in any transaction and whatever the other programs do, an account possibly being a signer or writable
because of another instruction — accepts it with exactly the results described by `post` (and rejects it if there is none). -/
def Results (cfg : Cfg) (L : RatioLib) (w : World) (ix : TopIx) (post : World → Prop) : Prop :=
  ∀ (env : Env cfg) (tx : TxInfo) (seen : List Acc) (w' : World), SeenAs ix.accs seen →
    (processInstruction cfg L env tx w ix.program seen ix.data = .ok w' ↔ post w')

/-- These keys suffice to sign for the instruction. -/
def Signable (ix : TopIx) (keys : List Pubkey) : Prop := ∀ a ∈ ix.accs, a.signer = true → a.key ∈ keys

/-- The pool is neither disabled nor being rebalanced. -/
def PoolState.Active (p : PoolState) : Prop := p.isRebalancing = 0 ∧ p.isDisabled = 0

/-! ### Proofs -/

theorem fetchAdmin_ok {w : World} {signer : Pubkey} {p : PoolState} :
    fetchAdmin w signer = .ok p ↔ w.ctl.pool = some p ∧ p.admin = signer := by
  simp only [fetchAdmin, fetchPool, bind_ok, okOr_ok, require_ok, exists_const, pure_ok]
  constructor
  · rintro ⟨a, h1, h2, rfl⟩; exact ⟨h1, h2⟩
  · rintro ⟨h1, h2⟩; exact ⟨p, h1, h2, rfl⟩

theorem fetchAdminOrAuth_ok {w : World} {signer : Pubkey} {p : PoolState} :
    fetchAdminOrAuth w signer = .ok p ↔ w.ctl.pool = some p ∧ (p.admin = signer ∨ signer ∈ w.ctl.auths) := by
  simp only [fetchAdminOrAuth, fetchPool, bind_ok, okOr_ok, require_ok, exists_const, pure_ok]
  constructor
  · rintro ⟨a, h1, h2, rfl⟩; exact ⟨h1, h2⟩
  · rintro ⟨h1, h2⟩; exact ⟨p, h1, h2, rfl⟩

theorem rebAuthKey_ok {p : PoolState} {signer k : Pubkey} :
    AdminCli.rebAuthKey p signer = .ok k ↔ k = signer ∧ (p.admin = signer ∨ p.rebalanceAuthority = signer) := by
  unfold AdminCli.rebAuthKey
  split
  · rename_i h; simp [h, eq_comm]
  · rename_i h
    split
    · rename_i h'; simp [h', eq_comm]
    · rename_i h'; simp [h, h']

theorem Results.of {cfg : Cfg} {L : RatioLib} {w : World} {accs : List Acc} {post : World → Prop} (i : Ix) (hi : i.Wf)
    (h : ∀ (env : Env cfg) (tx : TxInfo) (seen : List Acc) (w' : World), SeenAs accs seen →
      (processIx cfg L env tx w seen i = .ok w' ↔ post w')) : Results cfg L w ⟨cfg.programId, accs, i.encode⟩ post := by
  intro env tx seen w' hs
  rw [processInstruction_of_decode L env tx w seen (C38_roundtrip i hi)]
  exact h env tx seen w' hs

section
variable {cfg : Cfg} {L : RatioLib} {w : World} {p : PoolState} {signer : Pubkey} {ix : TopIx}

/-- C60: every command but `remove-lst` and `init` goes on only if given the key its documentation names, and then always builds its transaction if the
accounts it names exist. -/
theorem C60_refuses (hp : w.ctl.pool = some p) :
    (∀ new, (∃ ix, AdminCli.setAdmin cfg w signer new = .ok ix) ↔ p.admin = signer) ∧
    (∀ args, (∃ ix, AdminCli.setProtocolFee cfg w signer args = .ok ix) ↔ p.admin = signer) ∧
    (∀ new, (∃ ix, AdminCli.setBeneficiary cfg w signer new = .ok ix) ↔ p.protocolFeeBeneficiary = signer) ∧
    (∀ new, (∃ ix, AdminCli.setPricing cfg w signer new = .ok ix) ↔ p.admin = signer) ∧
    (∀ new, (∃ ix, AdminCli.setRebAuth cfg w signer new = .ok ix) ↔ p.admin = signer ∨ p.rebalanceAuthority = signer) ∧
    ((∃ ix, AdminCli.enablePool cfg w signer = .ok ix) ↔ p.admin = signer) ∧
    ((∃ ix, AdminCli.disablePool cfg w signer = .ok ix) ↔ p.admin = signer ∨ signer ∈ w.ctl.auths) ∧
    (∀ payer new, (∃ ix, AdminCli.addAuth cfg w signer payer new = .ok ix) ↔ p.admin = signer) ∧
    (∀ payer mint calculator, (∃ ix, AdminCli.addLst cfg w signer payer mint calculator = .ok ix) ↔
      p.admin = signer ∧ w.led.mints mint ≠ none) := by
  have key : ∀ f : PoolState → TopIx, (∃ ix, (do let s ← fetchAdmin w signer; pure (f s) : R TopIx) = .ok ix) ↔ p.admin = signer := by
    intro f
    simp only [bind_ok, fetchAdmin_ok, pure_ok, hp]
    constructor
    · rintro ⟨_, s, ⟨h, h'⟩, _⟩; cases h; exact h'
    · intro h; exact ⟨_, p, ⟨rfl, h⟩, rfl⟩
  refine ⟨fun _ => key _, fun _ => key _, fun _ => ?_, fun _ => key _, fun _ => ?_, key _, ?_, fun _ _ => key _, fun _ _ _ => ?_⟩
  · simp only [AdminCli.setBeneficiary, fetchPool, bind_ok, okOr_ok, require_ok, exists_const, pure_ok, hp]
    constructor
    · rintro ⟨_, s, h, h', _⟩; cases h; exact h'
    · intro h; exact ⟨_, p, rfl, h, rfl⟩
  · simp only [AdminCli.setRebAuth, fetchPool, bind_ok, okOr_ok, rebAuthKey_ok, pure_ok, hp]
    constructor
    · rintro ⟨_, s, h, k, h', _⟩; cases h; exact h'.2
    · intro h; exact ⟨_, p, rfl, signer, ⟨rfl, h⟩, rfl⟩
  · simp only [AdminCli.disablePool, bind_ok, fetchAdminOrAuth_ok, pure_ok, hp]
    constructor
    · rintro ⟨_, s, ⟨h, h'⟩, _⟩; cases h; exact h'
    · intro h; exact ⟨_, p, ⟨rfl, h⟩, rfl⟩
  · simp only [AdminCli.addLst, bind_ok, okOr_ok, fetchAdmin_ok, pure_ok, hp]
    constructor
    · rintro ⟨_, m, hm, s, ⟨h, h'⟩, _⟩; cases h; exact ⟨h', by simp [hm]⟩
    · rintro ⟨h, hm⟩
      obtain ⟨m, hm⟩ := Option.ne_none_iff_exists'.1 hm
      exact ⟨_, m, hm, p, ⟨rfl, h⟩, rfl⟩

/-- C60, `set-admin`: the command's instruction is always accepted and hands the pool over to the new admin, changing nothing else. -/
theorem C60_setAdmin {new : Pubkey} (hp : w.ctl.pool = some p) (hc : AdminCli.setAdmin cfg w signer new = .ok ix) :
    Signable ix [signer] ∧ Results cfg L w ix fun w' => w' = { w with ctl := { w.ctl with pool := some { p with admin := new } } } := by
  simp only [AdminCli.setAdmin, bind_ok, fetchAdmin_ok, pure_ok, hp] at hc
  obtain ⟨_, ⟨h, rfl⟩, rfl⟩ := hc
  cases h
  refine ⟨by simp [Signable, sgMeta, roMeta, wrMeta], .of _ trivial fun env tx seen w' hseen => ?_⟩
  obtain ⟨a, _, rfl, ha, hseen⟩ := SeenAs.cons_inv hseen
  obtain ⟨b, _, rfl, hb, hseen⟩ := SeenAs.cons_inv hseen
  obtain ⟨c, _, rfl, hc, hseen⟩ := SeenAs.cons_inv hseen
  have k1 : a.key = p.admin := ha.key
  have k2 : b.key = new := hb.key
  have k3 : c.key = cfg.poolState := hc.key
  have s1 := ha.signer rfl
  have w3 := hc.writable rfl
  simp only [processIx, processSetAdmin, SetAdminAccs.load, bind_ok, Except.ok.injEq, exists_eq_left', require_ok, exists_const, checkKeys_ok,
    checkWritable_ok, checkSigner_ok, getPool_ok, hp, Option.some.injEq, List.forall_mem_cons, k1, k2, k3, s1, w3, pure_ok, World.setPool]
  constructor
  · rintro ⟨_, _, _, _, h3⟩; exact h3.symm
  · intro h3; exact ⟨trivial, by simp, by simp, by simp, h3.symm⟩

/-- C60, `set-protocol-fee`: accepted exactly if the pool is active and no fee exceeds 100%; the fees given replace the pool's, and nothing else changes. -/
theorem C60_setProtocolFee {args : SetProtocolFeeArgs} (hp : w.ctl.pool = some p)
    (h16 : (∀ n ∈ args.newTradingProtocolFeeBps, n < 2 ^ 16) ∧ (∀ n ∈ args.newLpProtocolFeeBps, n < 2 ^ 16))
    (hc : AdminCli.setProtocolFee cfg w signer args = .ok ix) :
    Signable ix [signer] ∧ Results cfg L w ix fun w' => p.Active ∧ (∀ n ∈ args.newTradingProtocolFeeBps, n ≤ 10000) ∧
      (∀ n ∈ args.newLpProtocolFeeBps, n ≤ 10000) ∧
      w' = { w with ctl := { w.ctl with pool := some { p with
        tradingProtocolFeeBps := args.newTradingProtocolFeeBps.getD p.tradingProtocolFeeBps
        lpProtocolFeeBps := args.newLpProtocolFeeBps.getD p.lpProtocolFeeBps } } } := by
  simp only [AdminCli.setProtocolFee, bind_ok, fetchAdmin_ok, pure_ok, hp] at hc
  obtain ⟨_, ⟨h, rfl⟩, rfl⟩ := hc
  cases h
  refine ⟨by simp [Signable, sgMeta, roMeta, wrMeta], .of _ h16 fun env tx seen w' hseen => ?_⟩
  obtain ⟨a, _, rfl, ha, hseen⟩ := SeenAs.cons_inv hseen
  obtain ⟨c, _, rfl, hc, hseen⟩ := SeenAs.cons_inv hseen
  have k1 : a.key = p.admin := ha.key
  have k3 : c.key = cfg.poolState := hc.key
  have s1 := ha.signer rfl
  have w3 := hc.writable rfl
  simp only [processIx, processSetProtocolFee, SetFeeAccs.load, bind_ok, Except.ok.injEq, exists_eq_left', require_ok, exists_const, checkKeys_ok,
    checkWritable_ok, checkSigner_ok, getPool_ok, hp, Option.some.injEq, List.forall_mem_cons, k1, k3, s1, w3, pure_ok, World.setPool, verifyActive_ok]
  constructor
  · rintro ⟨_, _, _, _, h, h1, h2, h3⟩; exact ⟨h, h2, h1, h3.symm⟩
  · rintro ⟨h, h2, h1, h3⟩; exact ⟨trivial, by simp, by simp, by simp, h, h1, h2, h3.symm⟩

/-- C60, `set-protocol-fee-beneficiary`: accepted exactly if the pool is active; only the beneficiary changes. -/
theorem C60_setBeneficiary {new : Pubkey} (hp : w.ctl.pool = some p) (hc : AdminCli.setBeneficiary cfg w signer new = .ok ix) :
    Signable ix [signer] ∧ Results cfg L w ix fun w' => p.Active ∧
      w' = { w with ctl := { w.ctl with pool := some { p with protocolFeeBeneficiary := new } } } := by
  simp only [AdminCli.setBeneficiary, fetchPool, bind_ok, okOr_ok, require_ok, exists_const, pure_ok, hp] at hc
  obtain ⟨_, h, rfl, rfl⟩ := hc
  cases h
  refine ⟨by simp [Signable, sgMeta, roMeta, wrMeta], .of _ trivial fun env tx seen w' hseen => ?_⟩
  obtain ⟨a, _, rfl, ha, hseen⟩ := SeenAs.cons_inv hseen
  obtain ⟨b, _, rfl, hb, hseen⟩ := SeenAs.cons_inv hseen
  obtain ⟨c, _, rfl, hc, hseen⟩ := SeenAs.cons_inv hseen
  have k1 : a.key = p.protocolFeeBeneficiary := ha.key
  have k2 : b.key = new := hb.key
  have k3 : c.key = cfg.poolState := hc.key
  have s1 := ha.signer rfl
  have w3 := hc.writable rfl
  simp only [processIx, processSetBeneficiary, SetBeneficiaryAccs.load, bind_ok, Except.ok.injEq, exists_eq_left', require_ok, exists_const, checkKeys_ok,
    checkWritable_ok, checkSigner_ok, getPool_ok, hp, Option.some.injEq, List.forall_mem_cons, k1, k2, k3, s1, w3, pure_ok, World.setPool, verifyActive_ok]
  constructor
  · rintro ⟨_, _, _, _, h, h3⟩; exact ⟨h, h3.symm⟩
  · rintro ⟨h, h3⟩; exact ⟨trivial, by simp, by simp, by simp, h, h3.symm⟩

/-- C60, `set-pricing-program`: accepted exactly if the pool is active and the new program is one; only the pricing program changes. -/
theorem C60_setPricing {new : Pubkey} (hp : w.ctl.pool = some p) (hc : AdminCli.setPricing cfg w signer new = .ok ix) :
    Signable ix [signer] ∧ Results cfg L w ix fun w' => p.Active ∧ w.led.exec new = true ∧
      w' = { w with ctl := { w.ctl with pool := some { p with pricingProgram := new } } } := by
  simp only [AdminCli.setPricing, bind_ok, fetchAdmin_ok, pure_ok, hp] at hc
  obtain ⟨_, ⟨h, rfl⟩, rfl⟩ := hc
  cases h
  refine ⟨by simp [Signable, sgMeta, roMeta, wrMeta], .of _ trivial fun env tx seen w' hseen => ?_⟩
  obtain ⟨a, _, rfl, ha, hseen⟩ := SeenAs.cons_inv hseen
  obtain ⟨b, _, rfl, hb, hseen⟩ := SeenAs.cons_inv hseen
  obtain ⟨c, _, rfl, hc, hseen⟩ := SeenAs.cons_inv hseen
  have k1 : a.key = p.admin := ha.key
  have k2 : b.key = new := hb.key
  have k3 : c.key = cfg.poolState := hc.key
  have s1 := ha.signer rfl
  have w3 := hc.writable rfl
  simp only [processIx, processSetPricing, SetPricingAccs.load, bind_ok, Except.ok.injEq, exists_eq_left', require_ok, exists_const, checkKeys_ok,
    checkWritable_ok, checkSigner_ok, getPool_ok, hp, Option.some.injEq, List.forall_mem_cons, k1, k2, k3, s1, w3, pure_ok, World.setPool, verifyActive_ok]
  constructor
  · rintro ⟨_, _, _, _, h, h', h3⟩; exact ⟨h', h, h3.symm⟩
  · rintro ⟨h', h, h3⟩; exact ⟨trivial, by simp, by simp, by simp, h, h', h3.symm⟩

/-- C60, `set-rebalance-authority`: accepted exactly if the pool is active; only the rebalance authority changes. -/
theorem C60_setRebAuth {new : Pubkey} (hp : w.ctl.pool = some p) (hc : AdminCli.setRebAuth cfg w signer new = .ok ix) :
    Signable ix [signer] ∧ Results cfg L w ix fun w' => p.Active ∧
      w' = { w with ctl := { w.ctl with pool := some { p with rebalanceAuthority := new } } } := by
  simp only [AdminCli.setRebAuth, fetchPool, bind_ok, okOr_ok, rebAuthKey_ok, pure_ok, hp] at hc
  obtain ⟨_, h, k, ⟨rfl, hsg⟩, rfl⟩ := hc
  cases h
  refine ⟨by simp [Signable, sgMeta, roMeta, wrMeta], .of _ trivial fun env tx seen w' hseen => ?_⟩
  obtain ⟨a, _, rfl, ha, hseen⟩ := SeenAs.cons_inv hseen
  obtain ⟨b, _, rfl, hb, hseen⟩ := SeenAs.cons_inv hseen
  obtain ⟨c, _, rfl, hc, hseen⟩ := SeenAs.cons_inv hseen
  have k1 : a.key = k := ha.key
  have k2 : b.key = new := hb.key
  have k3 : c.key = cfg.poolState := hc.key
  have s1 := ha.signer rfl
  have w3 := hc.writable rfl
  simp only [processIx, processSetRebAuth, SetRebAuthAccs.load, bind_ok, Except.ok.injEq, exists_eq_left', require_ok, exists_const, checkKeys_ok,
    checkWritable_ok, checkSigner_ok, getPool_ok, hp, Option.some.injEq, List.forall_mem_cons, k1, k2, k3, s1, w3, pure_ok, World.setPool, verifyActive_ok]
  constructor
  · rintro ⟨_, _, _, h, _, h3⟩; exact ⟨h, h3.symm⟩
  · rintro ⟨h, h3⟩; exact ⟨by simp, by simp, by simp, h, hsg.imp Eq.symm Eq.symm, h3.symm⟩

/-- C60, `enable-pool`: accepted exactly if the pool is disabled, which it then no longer is; nothing else changes. -/
theorem C60_enablePool (hp : w.ctl.pool = some p) (hc : AdminCli.enablePool cfg w signer = .ok ix) :
    Signable ix [signer] ∧ Results cfg L w ix fun w' => p.isDisabled ≠ 0 ∧
      w' = { w with ctl := { w.ctl with pool := some { p with isDisabled := 0 } } } := by
  simp only [AdminCli.enablePool, bind_ok, fetchAdmin_ok, pure_ok, hp] at hc
  obtain ⟨_, ⟨h, rfl⟩, rfl⟩ := hc
  cases h
  refine ⟨by simp [Signable, sgMeta, roMeta, wrMeta], .of _ trivial fun env tx seen w' hseen => ?_⟩
  obtain ⟨a, _, rfl, ha, hseen⟩ := SeenAs.cons_inv hseen
  obtain ⟨c, _, rfl, hc, hseen⟩ := SeenAs.cons_inv hseen
  have k1 : a.key = p.admin := ha.key
  have k3 : c.key = cfg.poolState := hc.key
  have s1 := ha.signer rfl
  have w3 := hc.writable rfl
  simp only [processIx, processEnablePool, EnablePoolAccs.load, bind_ok, Except.ok.injEq, exists_eq_left', require_ok, exists_const, checkKeys_ok,
    checkWritable_ok, checkSigner_ok, getPool_ok, hp, Option.some.injEq, List.forall_mem_cons, k1, k3, s1, w3, pure_ok, World.setPool]
  constructor
  · rintro ⟨_, _, _, _, h, h3⟩; exact ⟨by simpa using h, h3.symm⟩
  · rintro ⟨h, h3⟩; exact ⟨trivial, by simp, by simp, by simp, by simpa using h, h3.symm⟩

/-- C60, `disable-pool`: accepted exactly if the pool is active; the pool is then disabled, and nothing else changes. -/
theorem C60_disablePool (hp : w.ctl.pool = some p) (hc : AdminCli.disablePool cfg w signer = .ok ix) :
    Signable ix [signer] ∧ Results cfg L w ix fun w' => p.Active ∧
      w' = { w with ctl := { w.ctl with pool := some { p with isDisabled := 1 } } } := by
  simp only [AdminCli.disablePool, bind_ok, fetchAdminOrAuth_ok, pure_ok, hp] at hc
  obtain ⟨_, ⟨h, hsg⟩, rfl⟩ := hc
  cases h
  refine ⟨by simp [Signable, sgMeta, roMeta, wrMeta], .of _ trivial fun env tx seen w' hseen => ?_⟩
  obtain ⟨a, _, rfl, ha, hseen⟩ := SeenAs.cons_inv hseen
  obtain ⟨b, _, rfl, hb, hseen⟩ := SeenAs.cons_inv hseen
  obtain ⟨c, _, rfl, hc, hseen⟩ := SeenAs.cons_inv hseen
  have k1 : a.key = signer := ha.key
  have k2 : b.key = cfg.poolState := hb.key
  have k3 : c.key = cfg.disablePoolAuthorityList := hc.key
  have s1 := ha.signer rfl
  have w2 := hb.writable rfl
  simp only [processIx, processDisablePool, DisablePoolAccs.load, bind_ok, Except.ok.injEq, exists_eq_left', require_ok, exists_const, checkKeys_ok,
    checkWritable_ok, checkSigner_ok, getPool_ok, hp, Option.some.injEq, List.forall_mem_cons, k1, k2, k3, s1, w2, pure_ok, World.setPool, verifyActive_ok,
    verifyAdminOrAuth_ok]
  constructor
  · rintro ⟨_, _, _, h, _, h3⟩; exact ⟨h, h3.symm⟩
  · rintro ⟨h, h3⟩; exact ⟨by simp, by simp, by simp, h, hsg.imp Eq.symm id, h3.symm⟩

/-- C60, `add-disable-auth`: accepted exactly if the key is not yet on the list of disable-pool authorities, to which it is appended; nothing else
changes. -/
theorem C60_addAuth {payer new : Pubkey} (hp : w.ctl.pool = some p) (hc : AdminCli.addAuth cfg w signer payer new = .ok ix) :
    Signable ix [signer, payer] ∧ Results cfg L w ix fun w' => new ∉ w.ctl.auths ∧
      w' = { w with ctl := { w.ctl with auths := w.ctl.auths ++ [new] } } := by
  simp only [AdminCli.addAuth, bind_ok, fetchAdmin_ok, pure_ok, hp] at hc
  obtain ⟨_, ⟨h, rfl⟩, rfl⟩ := hc
  cases h
  refine ⟨by simp [Signable, sgMeta, roMeta, wrMeta], .of _ trivial fun env tx seen w' hseen => ?_⟩
  obtain ⟨a1, _, rfl, h1, hseen⟩ := SeenAs.cons_inv hseen
  obtain ⟨a2, _, rfl, h2, hseen⟩ := SeenAs.cons_inv hseen
  obtain ⟨a3, _, rfl, h3, hseen⟩ := SeenAs.cons_inv hseen
  obtain ⟨a4, _, rfl, h4, hseen⟩ := SeenAs.cons_inv hseen
  obtain ⟨a5, _, rfl, h5, hseen⟩ := SeenAs.cons_inv hseen
  obtain ⟨a6, _, rfl, h6, hseen⟩ := SeenAs.cons_inv hseen
  have k2 : a2.key = p.admin := h2.key
  have k3 : a3.key = cfg.poolState := h3.key
  have k4 : a4.key = new := h4.key
  have k5 : a5.key = cfg.disablePoolAuthorityList := h5.key
  have k6 : a6.key = cfg.systemProgram := h6.key
  have s1 := h1.signer rfl
  have s2 := h2.signer rfl
  have w1 := h1.writable rfl
  have w5 := h5.writable rfl
  simp only [processIx, processAddAuth, AddAuthAccs.load, bind_ok, Except.ok.injEq, exists_eq_left', require_ok, exists_const, checkKeys_ok,
    checkWritable_ok, checkSigner_ok, getPool_ok, hp, Option.some.injEq, List.forall_mem_cons, k2, k3, k4, k5, k6, s1, s2, w1, w5, pure_ok]
  constructor
  · rintro ⟨_, _, _, _, h, h3⟩; exact ⟨h, h3.symm⟩
  · rintro ⟨h, h3⟩; exact ⟨trivial, by simp, by simp, by simp, h, h3.symm⟩


theorem eraseIdx_first {α : Type} [DecidableEq α] {l : List α} {i : Nat} {k : α} (h : l[i]? = some k) (hf : ∀ n t, n < i → l[n]? = some t → t ≠ k) :
    l.eraseIdx i = l.erase k := by
  induction l generalizing i with
  | nil => simp at h
  | cons x l ih =>
    cases i with
    | zero => simp at h; subst h; simp
    | succ i =>
      have hx : x ≠ k := hf 0 x (by omega) (by simp)
      rw [List.eraseIdx_cons_succ, List.erase_cons_tail (by simpa using hx), ih (by simpa using h)
        (fun n t hn ht => hf (n + 1) t (by omega) (by simpa using ht))]

/-- The first index of a listed key. -/
theorem exists_first {α : Type} [DecidableEq α] {l : List α} {P : α → Bool} (h : ∃ x ∈ l, P x = true) :
    ∃ (i : Nat) (x : α), l[i]? = some x ∧ P x = true ∧ ∀ n t, n < i → l[n]? = some t → P t = false := by
  induction l with
  | nil => simp at h
  | cons y l ih =>
    by_cases hy : P y = true
    · exact ⟨0, y, by simp, hy, by omega⟩
    · obtain ⟨x, hx, hp⟩ := h
      rcases List.mem_cons.1 hx with rfl | hx
      · exact absurd hp hy
      · obtain ⟨i, x, h1, h2, h3⟩ := ih ⟨x, hx, hp⟩
        refine ⟨i + 1, x, by simpa using h1, h2, fun n t hn ht => ?_⟩
        cases n with
        | zero => simp at ht; subst ht; simpa using hy
        | succ n => exact h3 n t (by omega) (by simpa using ht)

/-- C60, `remove-disable-auth`: the command goes on exactly if the key is listed and either the admin's key or the very key to remove is given; its
instruction is then always accepted, and takes that key off the list, changing nothing else. -/
theorem C60_removeAuth {refund removing : Pubkey} (hp : w.ctl.pool = some p) (hlen : w.ctl.auths.length ≤ 2 ^ 32) :
    ((∃ ix, AdminCli.removeAuth cfg w signer refund removing = .ok ix) ↔
      removing ∈ w.ctl.auths ∧ (p.admin = signer ∨ signer = removing)) ∧
    (AdminCli.removeAuth cfg w signer refund removing = .ok ix → Signable ix [signer] ∧
      Results cfg L w ix fun w' => w' = { w with ctl := { w.ctl with auths := w.ctl.auths.erase removing } }) := by
  constructor
  · simp only [AdminCli.removeAuth, removeAuthByPubkey, resolveRemoveAuth, bind_ok, fetchAdminOrAuth_ok, require_ok, exists_const, okOr_ok, Prod.exists,
      findAuth_some, indexToU32_ok, pure_ok, hp, Prod.mk.injEq]
    constructor
    · rintro ⟨_, _, ⟨h, _⟩, hr, _, _, ⟨i, _, ⟨hi, rfl, _⟩, _⟩, _⟩
      cases h
      exact ⟨List.mem_of_getElem? hi, hr⟩
    · rintro ⟨hm, hr⟩
      obtain ⟨i, x, h1, h2, h3⟩ := exists_first (P := fun x => decide (x = removing)) ⟨removing, hm, by simp⟩
      simp only [decide_eq_true_eq, decide_eq_false_iff_not] at h2 h3
      subst h2
      have : i < w.ctl.auths.length := (List.getElem?_eq_some_iff.1 h1).1
      refine ⟨_, p, ⟨rfl, ?_⟩, hr, _, _, ⟨i, _, ⟨h1, rfl, h3⟩, i, ⟨by omega, rfl⟩, rfl, rfl⟩, rfl⟩
      rcases hr with h | rfl
      · exact .inl h
      · exact .inr hm
  · intro hc
    simp only [AdminCli.removeAuth, removeAuthByPubkey, resolveRemoveAuth, bind_ok, fetchAdminOrAuth_ok, require_ok, exists_const, okOr_ok, Prod.exists,
      findAuth_some, indexToU32_ok, pure_ok, hp, Prod.mk.injEq] at hc
    obtain ⟨_, ⟨h, hsg⟩, hr, _, _, ⟨i, au, ⟨hi, rfl, hf⟩, _, ⟨h32, rfl⟩, rfl, rfl⟩, rfl⟩ := hc
    cases h
    refine ⟨by simp [Signable, RemoveAuthKeys.metas, sgMeta, roMeta, wrMeta], .of _ h32 fun env tx seen w' hseen => ?_⟩
    obtain ⟨a1, _, rfl, h1, hseen⟩ := SeenAs.cons_inv hseen
    obtain ⟨a2, _, rfl, h2, hseen⟩ := SeenAs.cons_inv hseen
    obtain ⟨a3, _, rfl, h3, hseen⟩ := SeenAs.cons_inv hseen
    obtain ⟨a4, _, rfl, h4, hseen⟩ := SeenAs.cons_inv hseen
    obtain ⟨a5, _, rfl, h5, hseen⟩ := SeenAs.cons_inv hseen
    have k2 : a2.key = signer := h2.key
    have k3 : a3.key = au := h3.key
    have k4 : a4.key = cfg.poolState := h4.key
    have k5 : a5.key = cfg.disablePoolAuthorityList := h5.key
    have s2 := h2.signer rfl
    have w1 := h1.writable rfl
    have w5 := h5.writable rfl
    simp only [processIx, processRemoveAuth, RemoveAuthAccs.load, bind_ok, Except.ok.injEq, exists_eq_left', require_ok, exists_const, checkKeys_ok,
      checkWritable_ok, checkSigner_ok, getPool_ok, okOr_ok, hi, hp, Option.some.injEq, List.forall_mem_cons, k2, k3, k4, k5, s2, w1, w5, pure_ok,
      verifyAdminOrAuth_ok, eraseIdx_first hi hf]
    constructor
    · rintro ⟨_, _, _, _, _, _, _, h3⟩; exact h3.symm
    · intro h3
      exact ⟨trivial, trivial, by simp, by simp, by simp, hsg.imp Eq.symm id, hr.imp Eq.symm id, h3.symm⟩

theorem set_eq_map {ls : List LstState} {i : Nat} {s : LstState} (f : LstState → LstState) (hn : (ls.map LstState.mint).Nodup) (hi : ls[i]? = some s) :
    ls.set i (f s) = ls.map fun t => if t.mint = s.mint then f t else t := by
  apply List.ext_getElem?
  intro j
  rw [List.getElem?_set, List.getElem?_map]
  by_cases hij : i = j
  · subst hij
    obtain ⟨hl, rfl⟩ := List.getElem?_eq_some_iff.1 hi
    simp [hl]
  · rw [if_neg hij]
    cases hj : ls[j]? with
    | none => rfl
    | some t =>
      have : t.mint ≠ s.mint := fun e => hij (mint_index hn hi hj e.symm)
      simp [this]

theorem eraseIdx_eq_filter {ls : List LstState} {i : Nat} {s : LstState} (hn : (ls.map LstState.mint).Nodup) (hi : ls[i]? = some s) :
    ls.eraseIdx i = ls.filter fun t => t.mint ≠ s.mint := by
  induction ls generalizing i with
  | nil => simp at hi
  | cons x ls ih =>
    rw [List.map_cons, List.nodup_cons] at hn
    cases i with
    | zero =>
      simp at hi; subst hi
      rw [List.eraseIdx_cons_zero, List.filter_cons_of_neg (by simp), eq_comm, List.filter_eq_self]
      intro t ht
      simp only [ne_eq, decide_not, Bool.not_eq_true', decide_eq_false_iff_not]
      exact fun e => hn.1 (e ▸ List.mem_map_of_mem ht)
    | succ i =>
      have hi' : ls[i]? = some s := by simpa using hi
      have : x.mint ≠ s.mint := fun e => hn.1 (e ▸ List.mem_map_of_mem (List.mem_of_getElem? hi'))
      rw [List.eraseIdx_cons_succ, ih hn.2 hi', List.filter_cons_of_pos (by simpa using this)]

/-- C60, `disable-lst-input` and `enable-lst-input`: the command goes on exactly if given the admin's key and a listed mint; its instruction is accepted
exactly if the pool is active, and sets the flag of that LST, changing nothing else. -/
theorem C60_lstInput {disable : Bool} {mint : Pubkey} (hreach : Reachable cfg L w) (hp : w.ctl.pool = some p) (hlen : w.ctl.lsts.length ≤ 2 ^ 32) :
    ((∃ ix, AdminCli.lstInput cfg w disable signer mint = .ok ix) ↔ p.admin = signer ∧ ∃ s ∈ w.ctl.lsts, s.mint = mint) ∧
    (AdminCli.lstInput cfg w disable signer mint = .ok ix → Signable ix [signer] ∧ Results cfg L w ix fun w' => p.Active ∧
      w' = { w with ctl := { w.ctl with lsts := w.ctl.lsts.map fun s =>
        if s.mint = mint then { s with isInputDisabled := if disable then 1 else 0 } else s } }) := by
  constructor
  · simp only [AdminCli.lstInput, lstInputByMint, resolveInput, bind_ok, fetchAdmin_ok, Prod.exists, findLst_ok, indexToU32_ok, pure_ok, hp,
      Prod.mk.injEq]
    constructor
    · rintro ⟨_, _, ⟨h, h'⟩, _, _, ⟨i, s, ⟨hi, hm, _⟩, _⟩, _⟩
      cases h
      exact ⟨h', s, List.mem_of_getElem? hi, hm⟩
    · rintro ⟨h', s, hs, hm⟩
      obtain ⟨i, x, h1, h2, h3⟩ := exists_first (P := fun x : LstState => decide (x.mint = mint)) ⟨s, hs, by simpa using hm⟩
      simp only [decide_eq_true_eq, decide_eq_false_iff_not] at h2 h3
      have : i < w.ctl.lsts.length := (List.getElem?_eq_some_iff.1 h1).1
      exact ⟨_, p, ⟨rfl, h'⟩, _, _, ⟨i, x, ⟨h1, h2, h3⟩, rfl, rfl⟩, i, ⟨by omega, rfl⟩, rfl⟩
  · intro hc
    simp only [AdminCli.lstInput, lstInputByMint, resolveInput, bind_ok, fetchAdmin_ok, Prod.exists, findLst_ok, indexToU32_ok, pure_ok, hp,
      Prod.mk.injEq] at hc
    obtain ⟨_, ⟨h, rfl⟩, _, _, ⟨i, s, ⟨hi, rfl, _⟩, rfl, rfl⟩, j, ⟨h32, hj⟩, rfl⟩ := hc
    subst hj
    cases h
    have key : ∀ (f : Nat) (seen : List Acc) (w' : World),
        SeenAs [sgMeta p.admin, roMeta s.mint, wrMeta cfg.poolState, wrMeta cfg.lstStateList] seen →
        (processSetLstInput cfg w seen j f = .ok w' ↔ p.Active ∧
          w' = { w with ctl := { w.ctl with lsts := w.ctl.lsts.map fun t => if t.mint = s.mint then { t with isInputDisabled := f } else t } }) := by
      intro f seen w' hseen
      obtain ⟨a1, _, rfl, h1, hseen⟩ := SeenAs.cons_inv hseen
      obtain ⟨a2, _, rfl, h2, hseen⟩ := SeenAs.cons_inv hseen
      obtain ⟨a3, _, rfl, h3, hseen⟩ := SeenAs.cons_inv hseen
      obtain ⟨a4, _, rfl, h4, hseen⟩ := SeenAs.cons_inv hseen
      have k1 : a1.key = p.admin := h1.key
      have k2 : a2.key = s.mint := h2.key
      have k3 : a3.key = cfg.poolState := h3.key
      have k4 : a4.key = cfg.lstStateList := h4.key
      have s1 := h1.signer rfl
      have w3 := h3.writable rfl
      have w4 := h4.writable rfl
      simp only [processSetLstInput, LstInputAccs.load, bind_ok, Except.ok.injEq, exists_eq_left', require_ok, exists_const, checkKeys_ok,
        checkWritable_ok, checkSigner_ok, getPool_ok, okOr_ok, hi, hp, Option.some.injEq, List.forall_mem_cons, k1, k2, k3, k4, s1, w3, w4, pure_ok,
        World.setLsts, verifyActive_ok]
      rw [← set_eq_map (fun t => { t with isInputDisabled := f }) hreach.inv.ctl.mints hi]
      constructor
      · rintro ⟨_, _, _, _, _, h, h3⟩; exact ⟨h, h3.symm⟩
      · rintro ⟨h, h3⟩; exact ⟨trivial, trivial, by simp, by simp, by simp, h, h3.symm⟩
    refine ⟨by simp [Signable, InputKeys.metas, sgMeta, roMeta, wrMeta], ?_⟩
    cases disable with
    | true => exact .of (.disableLstInput j) h32 fun env tx seen w' hseen => key 1 seen w' hseen
    | false => exact .of (.enableLstInput j) h32 fun env tx seen w' hseen => key 0 seen w' hseen


/-- A token account, created empty at `k` if there is none. -/
def Ledger.created (l : Ledger) (k prog mint owner : Pubkey) : Ledger :=
  if l.tok k = none then l.setTok k (some ⟨prog, mint, owner, 0⟩) else l

theorem createIf_iff {l l' : Ledger} {wallet tp mint : Pubkey} {m : Mint} (hm : l.mints mint = some m) (hmp : m.program = tp) :
    createAtaIfNotExist cfg l (cfg.findAta wallet tp mint).1 wallet tp mint = .ok l' ↔
      (∀ a, l.tok (cfg.findAta wallet tp mint).1 = some a → a.owner = wallet) ∧ l' = l.created (cfg.findAta wallet tp mint).1 tp mint wallet := by
  unfold createAtaIfNotExist Ledger.created
  cases hk : l.tok (cfg.findAta wallet tp mint).1 with
  | none =>
    simp only [createAta, bind_ok, require_ok, exists_const, okOr_ok, pure_ok, hk, hm, Option.some.injEq, exists_eq_left', hmp, true_and, if_true]
    simp [eq_comm]
  | some a =>
    simp only [bind_ok, require_ok, exists_const, pure_ok, Option.some.injEq, reduceCtorEq, if_false]
    simp [eq_comm]

/-- C60, `add-lst`: accepted exactly if the mint belongs to one of the token programs, the calculator is a program, the mint is not listed, the pool is
active, and the LST's two token accounts, if they exist already, belong to the pool's PDAs. The mint is then listed at the end with no value, inputs enabled
and this calculator, and the two token accounts exist; nothing else changes. -/
theorem C60_addLst {payer mint calculator : Pubkey} {m : Mint} (hp : w.ctl.pool = some p) (hm : w.led.mints mint = some m)
    (hc : AdminCli.addLst cfg w signer payer mint calculator = .ok ix) :
    let res := cfg.findAta cfg.poolState m.program mint
    let acc := cfg.findAta cfg.protocolFee m.program mint
    Signable ix [signer, payer] ∧ Results cfg L w ix fun w' =>
      p.Active ∧ (m.program = cfg.splToken ∨ m.program = cfg.token22) ∧ w.led.exec calculator = true ∧ (∀ s ∈ w.ctl.lsts, s.mint ≠ mint) ∧
      (∀ a, w.led.tok res.1 = some a → a.owner = cfg.poolState) ∧ (∀ a, w.led.tok acc.1 = some a → a.owner = cfg.protocolFee) ∧
      w' = { ctl := { w.ctl with lsts := w.ctl.lsts ++ [⟨0, res.2, acc.2, 0, mint, calculator⟩] }
             led := (w.led.created res.1 m.program mint cfg.poolState).created acc.1 m.program mint cfg.protocolFee } := by
  intro res acc
  simp only [AdminCli.addLst, bind_ok, okOr_ok, fetchAdmin_ok, pure_ok, hp, hm] at hc
  obtain ⟨_, h0, _, ⟨h, rfl⟩, rfl⟩ := hc
  cases h; cases h0
  refine ⟨by simp [Signable, sgMeta, roMeta, wrMeta], .of _ trivial fun env tx seen w' hseen => ?_⟩
  obtain ⟨a1, _, rfl, h1, hseen⟩ := SeenAs.cons_inv hseen
  obtain ⟨a2, _, rfl, h2, hseen⟩ := SeenAs.cons_inv hseen
  obtain ⟨a3, _, rfl, h3, hseen⟩ := SeenAs.cons_inv hseen
  obtain ⟨a4, _, rfl, h4, hseen⟩ := SeenAs.cons_inv hseen
  obtain ⟨a5, _, rfl, h5, hseen⟩ := SeenAs.cons_inv hseen
  obtain ⟨a6, _, rfl, h6, hseen⟩ := SeenAs.cons_inv hseen
  obtain ⟨a7, _, rfl, h7, hseen⟩ := SeenAs.cons_inv hseen
  obtain ⟨a8, _, rfl, h8, hseen⟩ := SeenAs.cons_inv hseen
  obtain ⟨a9, _, rfl, h9, hseen⟩ := SeenAs.cons_inv hseen
  obtain ⟨b1, _, rfl, i1, hseen⟩ := SeenAs.cons_inv hseen
  obtain ⟨b2, _, rfl, i2, hseen⟩ := SeenAs.cons_inv hseen
  obtain ⟨b3, _, rfl, i3, hseen⟩ := SeenAs.cons_inv hseen
  have k1 : a1.key = p.admin := h1.key
  have k3 : a3.key = mint := h3.key
  have k4 : a4.key = res.1 := h4.key
  have k5 : a5.key = acc.1 := h5.key
  have k6 : a6.key = cfg.protocolFee := h6.key
  have k7 : a7.key = calculator := h7.key
  have k8 : a8.key = cfg.poolState := h8.key
  have k9 : a9.key = cfg.lstStateList := h9.key
  have j1 : b1.key = cfg.ataProgram := i1.key
  have j2 : b2.key = cfg.systemProgram := i2.key
  have j3 : b3.key = m.program := i3.key
  have s1 := h1.signer rfl
  have s2 := h2.signer rfl
  have w2 := h2.writable rfl
  have w4 := h4.writable rfl
  have w5 := h5.writable rfl
  have w6 := h6.writable rfl
  have w9 := h9.writable rfl
  have hne : acc.1 ≠ res.1 := fun e => cfg.pool_ne_fee
    (cfg.ata_inj (e ▸ cfg.findAta_ata cfg.poolState m.program mint) (cfg.findAta_ata cfg.protocolFee m.program mint)).1
  have c1 : ∀ l', createAtaIfNotExist cfg w.led res.1 cfg.poolState m.program mint = .ok l' ↔ _ := fun l' => createIf_iff hm rfl
  have hm1 : (w.led.created res.1 m.program mint cfg.poolState).mints mint = some m := by
    unfold Ledger.created; split <;> exact hm
  have c2 : ∀ l', createAtaIfNotExist cfg (w.led.created res.1 m.program mint cfg.poolState) acc.1 cfg.protocolFee m.program mint = .ok l' ↔ _ :=
    fun l' => createIf_iff hm1 rfl
  have ht : (w.led.created res.1 m.program mint cfg.poolState).tok acc.1 = w.led.tok acc.1 := by
    unfold Ledger.created; split
    · simp [upd_ne _ _ hne]
    · rfl
  rw [show (cfg.findAta cfg.protocolFee m.program mint).1 = acc.1 from rfl] at c2
  simp only [ht] at c2
  simp only [processIx, processAddLst, AddLstAccs.load, bind_ok, Except.ok.injEq, exists_eq_left', require_ok, exists_const, checkKeys_ok,
    checkWritable_ok, checkSigner_ok, getPool_ok, mintProgram_ok, hm, hp, Option.some.injEq, List.forall_mem_cons, k1, k3, k4, k5, k6, k7, k8, k9, j1, j2, j3,
    s1, s2, w2, w4, w5, w6, w9, pure_ok, verifyActive_ok]
  constructor
  · rintro ⟨_, _, _, _, e1, e2, e3, e4, l1, e5, l2, e6, e7⟩
    rw [c1] at e5
    obtain ⟨o1, rfl⟩ := e5
    rw [c2] at e6
    obtain ⟨o2, rfl⟩ := e6
    exact ⟨e4, e1, e2, e3, o1, o2, e7.symm⟩
  · rintro ⟨e4, e1, e2, e3, o1, o2, e7⟩
    exact ⟨trivial, by simp [res, acc], by simp, by simp, e1, e2, e3, e4, _, (c1 _).2 ⟨o1, rfl⟩, _, (c2 _).2 ⟨o2, rfl⟩, e7.symm⟩


/-- C60, `remove-lst`: the command goes on exactly if the mint is listed; its transaction needs the admin's signature, and is accepted exactly if the pool is
active and the LST has no value, reserves or accumulated fees left. The LST then leaves the list, its two token accounts are closed, and nothing else
changes. -/
theorem C60_removeLst {refund mint : Pubkey} (hreach : Reachable cfg L w) (hp : w.ctl.pool = some p) (hlen : w.ctl.lsts.length ≤ 2 ^ 32) :
    ((∃ ix, AdminCli.removeLst cfg w refund mint = .ok ix) ↔ ∃ s ∈ w.ctl.lsts, s.mint = mint) ∧
    (AdminCli.removeLst cfg w refund mint = .ok ix → ∃ s m ra fa, s ∈ w.ctl.lsts ∧ s.mint = mint ∧ w.led.mints mint = some m ∧
      let res := (cfg.findAta cfg.poolState m.program mint).1
      let acc := (cfg.findAta cfg.protocolFee m.program mint).1
      w.led.tok res = some ra ∧ w.led.tok acc = some fa ∧ (∀ keys, Signable ix keys ↔ p.admin ∈ keys) ∧
      Results cfg L w ix fun w' => p.Active ∧ s.solValue = 0 ∧ ra.amount = 0 ∧ fa.amount = 0 ∧
        w' = { ctl := { w.ctl with lsts := w.ctl.lsts.filter fun t => t.mint ≠ mint }, led := (w.led.setTok acc none).setTok res none }) := by
  constructor
  · simp only [AdminCli.removeLst, fetchPool, removeLstByMint, resolveRemoveLst, bind_ok, okOr_ok, Prod.exists, findLst_ok, poolReserves_ok,
      feeAccumulator_ok, require_ok, exists_const, pure_ok, hp, Prod.mk.injEq]
    constructor
    · rintro ⟨_, _, h, _, hm, _, _, ⟨i, s, ⟨hi, he, _⟩, _⟩, _⟩
      exact ⟨s, List.mem_of_getElem? hi, he⟩
    · rintro ⟨s, hs, hm⟩
      obtain ⟨i, x, h1, h2, h3⟩ := exists_first (P := fun x : LstState => decide (x.mint = mint)) ⟨s, hs, by simpa using hm⟩
      simp only [decide_eq_true_eq, decide_eq_false_iff_not] at h2 h3
      subst h2
      have : i < w.ctl.lsts.length := (List.getElem?_eq_some_iff.1 h1).1
      obtain ⟨m, ra, fa, c1, c2, c3, c4, c5, c6, c7, c8, c9, c10, c11, c12⟩ := C61_canonical hreach (List.mem_of_getElem? h1)
      exact ⟨_, p, rfl, m, c1, _, _, ⟨i, x, ⟨h1, rfl, h3⟩, _, c7, _, c12, by omega, rfl, rfl⟩, rfl⟩
  · intro hc
    simp only [AdminCli.removeLst, fetchPool, removeLstByMint, resolveRemoveLst, bind_ok, okOr_ok, Prod.exists, findLst_ok, poolReserves_ok,
      feeAccumulator_ok, require_ok, exists_const, pure_ok, hp, Prod.mk.injEq] at hc
    obtain ⟨_, h, m, hm, _, _, ⟨i, s, ⟨hi, he, _⟩, res', hres, acc', hacc, h32, rfl, rfl⟩, rfl⟩ := hc
    cases h
    obtain ⟨m', ra, fa, c1, c2, c3, c4, c5, c6, c7, c8, c9, c10, c11, c12⟩ := C61_canonical hreach (List.mem_of_getElem? hi)
    subst he
    rw [hm] at c1; injection c1 with c1; subst c1
    rw [c7] at hres; injection hres with hres; subst hres
    rw [c12] at hacc; injection hacc with hacc; subst hacc
    refine ⟨s, m, ra, fa, List.mem_of_getElem? hi, rfl, hm, c3, c8, by simp [Signable, RemoveLstKeys.metas, sgMeta, roMeta, wrMeta],
      .of _ h32 fun env tx seen w' hseen => ?_⟩
    obtain ⟨a1, _, rfl, h1, hseen⟩ := SeenAs.cons_inv hseen
    obtain ⟨a2, _, rfl, h2, hseen⟩ := SeenAs.cons_inv hseen
    obtain ⟨a3, _, rfl, h3, hseen⟩ := SeenAs.cons_inv hseen
    obtain ⟨a4, _, rfl, h4, hseen⟩ := SeenAs.cons_inv hseen
    obtain ⟨a5, _, rfl, h5, hseen⟩ := SeenAs.cons_inv hseen
    obtain ⟨a6, _, rfl, h6, hseen⟩ := SeenAs.cons_inv hseen
    obtain ⟨a7, _, rfl, h7, hseen⟩ := SeenAs.cons_inv hseen
    obtain ⟨a8, _, rfl, h8, hseen⟩ := SeenAs.cons_inv hseen
    obtain ⟨a9, _, rfl, h9, hseen⟩ := SeenAs.cons_inv hseen
    have k1 : a1.key = p.admin := h1.key
    have k3 : a3.key = s.mint := h3.key
    have k4 : a4.key = (cfg.findAta cfg.poolState m.program s.mint).1 := h4.key
    have k5 : a5.key = (cfg.findAta cfg.protocolFee m.program s.mint).1 := h5.key
    have k6 : a6.key = cfg.protocolFee := h6.key
    have k7 : a7.key = cfg.poolState := h7.key
    have k8 : a8.key = cfg.lstStateList := h8.key
    have k9 : a9.key = m.program := h9.key
    have s1 := h1.signer rfl
    have w2 := h2.writable rfl
    have w4 := h4.writable rfl
    have w5 := h5.writable rfl
    have w6 := h6.writable rfl
    have w8 := h8.writable rfl
    have hne : (cfg.findAta cfg.poolState m.program s.mint).1 ≠ (cfg.findAta cfg.protocolFee m.program s.mint).1 := fun e => cfg.pool_ne_fee
      (cfg.ata_inj (cfg.findAta_ata cfg.poolState m.program s.mint) (e ▸ cfg.findAta_ata cfg.protocolFee m.program s.mint)).1
    simp only [processIx, processRemoveLst, RemoveLstAccs.load, bind_ok, Except.ok.injEq, exists_eq_left', require_ok, exists_const, checkKeys_ok,
      checkWritable_ok, checkSigner_ok, getPool_ok, mintProgram_ok, matchLst_ok, poolReserves_ok, feeAccumulator_ok, tokenBalance_ok, hm, hp, hi, c3, c8,
      Option.some.injEq, List.forall_mem_cons, k1, k3, k4, k5, k6, k7, k8, k9, s1, w2, w4, w5, w6, w8, pure_ok, verifyActive_ok, closeToken_ok]
    rw [← eraseIdx_eq_filter hreach.inv.ctl.mints hi]
    constructor
    · rintro ⟨_, _, s', ⟨rfl, _⟩, res', hres, acc', hacc, _, _, _, e1, e2, l1, ⟨_, _, _, rfl⟩, l2, ⟨b2, hb2, _, _, _, rfl⟩, e3⟩
      simp only [not_or, Decidable.not_not, ne_eq] at e2
      exact ⟨e1, e2.1, e2.2.1, e2.2.2, e3.symm⟩
    · rintro ⟨e1, e2, e3, e4, e5⟩
      refine ⟨trivial, trivial, s, ⟨rfl, rfl⟩, _, c7, _, c12, ?_, ?_, ?_, e1, ?_, _, ⟨c11, c9, e4, rfl⟩, _, ⟨ra, ?_, ?_, ?_, ?_, rfl⟩, e5.symm⟩
      · simp
      · simp
      · simp
      · simp [e2, e3, e4]
      all_goals first | assumption | skip
      · simp [upd_ne _ _ hne, c3]


/-- C60, `set-sol-value-calculator`: the command goes on exactly if given the admin's key, a listed mint and at most 254 further accounts. If the new
calculator, called with these accounts, values the reserves `ra` at `r.min`, and the pool's total fits, its instruction is accepted exactly if the pool is
active and the calculator is a program; the LST then has the new calculator and the value it gives, the pool's total is adjusted, and nothing else
changes. -/
theorem C60_setCalc {mint calculator : Pubkey} {suffix : List Pubkey} (hreach : Reachable cfg L w) (hp : w.ctl.pool = some p)
    (hlen : w.ctl.lsts.length ≤ 2 ^ 32) :
    ((∃ ix, AdminCli.setCalc cfg w signer mint calculator suffix = .ok ix) ↔
      p.admin = signer ∧ (∃ s ∈ w.ctl.lsts, s.mint = mint) ∧ suffix.length ≤ 254) ∧
    (AdminCli.setCalc cfg w signer mint calculator suffix = .ok ix → Signable ix [signer] ∧
      ∃ s m ra, s ∈ w.ctl.lsts ∧ s.mint = mint ∧ w.led.mints mint = some m ∧
        w.led.tok (cfg.findAta cfg.poolState m.program mint).1 = some ra ∧
      ∀ (env : Env cfg) (tx : TxInfo) (seen : List Acc) (w' : World) (cal : AnyCalc) (r : Range), SeenAs ix.accs seen →
        env.Serves L ⟨calculator, roMeta mint :: suffix.map roMeta⟩ cal → cal.Usable → (cal.calculator L).lstToSol ra.amount = .ok r →
        p.totalSolValue - s.solValue + r.min < U64 →
        (processInstruction cfg L env tx w ix.program seen ix.data = .ok w' ↔ p.Active ∧ w.led.exec calculator = true ∧
          w' = { w with ctl := { w.ctl with
            pool := some { p with totalSolValue := p.totalSolValue - s.solValue + r.min }
            lsts := w.ctl.lsts.map fun t => if t.mint = mint then { t with solValueCalculator := calculator, solValue := r.min } else t } })) := by
  constructor
  · simp only [AdminCli.setCalc, setCalcByMint, resolveSetCalc, setCalcIx, bind_ok, okOr_ok, fetchAdmin_ok, Prod.exists, findLst_ok, poolReserves_ok,
      indexToU32_ok, extendOne_ok, pure_ok, hp, Prod.mk.injEq]
    constructor
    · rintro ⟨_, m, hm, _, ⟨h, hs⟩, _, _, ⟨i, s, ⟨hi, he, _⟩, _⟩, _, _, _, _, ⟨hn, _⟩, _⟩
      cases h
      simp only [List.length_cons, List.length_map] at hn
      exact ⟨hs, ⟨s, List.mem_of_getElem? hi, he⟩, by omega⟩
    · rintro ⟨hs, ⟨s, hsl, hm⟩, hn⟩
      obtain ⟨i, x, h1, h2, h3⟩ := exists_first (P := fun x : LstState => decide (x.mint = mint)) ⟨s, hsl, by simpa using hm⟩
      simp only [decide_eq_true_eq, decide_eq_false_iff_not] at h2 h3
      subst h2
      have : i < w.ctl.lsts.length := (List.getElem?_eq_some_iff.1 h1).1
      obtain ⟨m, ra, fa, c1, c2, c3, c4, c5, c6, c7, c8, c9, c10, c11, c12⟩ := C61_canonical hreach (List.mem_of_getElem? h1)
      exact ⟨_, m, c1, p, ⟨rfl, hs⟩, _, _, ⟨i, x, ⟨h1, rfl, h3⟩, _, c7, rfl, rfl⟩, i, ⟨by omega, rfl⟩, _, _, ⟨by simp; omega, rfl, rfl⟩, rfl⟩
  · intro hc
    simp only [AdminCli.setCalc, setCalcByMint, resolveSetCalc, setCalcIx, bind_ok, okOr_ok, fetchAdmin_ok, Prod.exists, findLst_ok, poolReserves_ok,
      indexToU32_ok, extendOne_ok, pure_ok, hp, Prod.mk.injEq] at hc
    obtain ⟨m, hm, _, ⟨h, rfl⟩, _, _, ⟨i, s, ⟨hi, he, _⟩, res', hres, rfl, rfl⟩, j, ⟨h32, hj⟩, _, _, ⟨hn, rfl, rfl⟩, rfl⟩ := hc
    subst hj
    cases h
    obtain ⟨m', ra, fa, c1, c2, c3, c4, c5, c6, c7, c8, c9, c10, c11, c12⟩ := C61_canonical hreach (List.mem_of_getElem? hi)
    subst he
    rw [hm] at c1; injection c1 with c1; subst c1
    rw [c7] at hres; injection hres with hres; subst hres
    refine ⟨by simp [Signable, SetCalcKeys.metas, sgMeta, roMeta, wrMeta], s, m, ra, List.mem_of_getElem? hi, rfl, hm, c3, ?_⟩
    intro env tx seen w' cal r hseen hserve hus hr hfit
    rw [processInstruction_of_decode L env tx w seen (C38_roundtrip (.setSolValueCalculator j) h32)]
    dsimp only at hseen
    obtain ⟨l1, l2, rfl, hseen, hsuf⟩ := hseen.split
    obtain ⟨a1, _, rfl, h1, hseen⟩ := SeenAs.cons_inv hseen
    obtain ⟨a2, _, rfl, h2, hseen⟩ := SeenAs.cons_inv hseen
    obtain ⟨a3, _, rfl, h3, hseen⟩ := SeenAs.cons_inv hseen
    obtain ⟨a4, _, rfl, h4, hseen⟩ := SeenAs.cons_inv hseen
    obtain ⟨a5, _, rfl, h5, hseen⟩ := SeenAs.cons_inv hseen
    cases hseen
    have k1 : a1.key = p.admin := h1.key
    have k2 : a2.key = s.mint := h2.key
    have k3 : a3.key = cfg.poolState := h3.key
    have k4 : a4.key = (cfg.findAta cfg.poolState m.program s.mint).1 := h4.key
    have k5 : a5.key = cfg.lstStateList := h5.key
    have s1 := h1.signer rfl
    have w3 := h3.writable rfl
    have w5 := h5.writable rfl
    obtain ⟨y, l', rfl, hy, hrest⟩ := SeenAs.cons_inv hsuf
    have ky : y.key = calculator := hy.key
    have hx : CalcCpi.ofSuffix s.mint (y :: l') = .ok ⟨calculator, s.mint, l'⟩ := by simp [CalcCpi.ofSuffix, ky]
    have his := calc_is (c := ⟨calculator, roMeta s.mint :: suffix.map roMeta⟩) rfl (.cons hy hrest) hx
    have hle : s.solValue ≤ p.totalSolValue := by
      rw [hreach.inv.ctl.total p hp]; exact value_le_sum hi
    have hset : (w.ctl.lsts.set j { s with solValueCalculator := calculator })[j]? = some { s with solValueCalculator := calculator } := by
      rw [List.getElem?_set_self (List.getElem?_eq_some_iff.1 hi).1]
    have hrun := syncUnchecked_ok.2 ⟨_, _, sync_live (w := w.setLsts (w.ctl.lsts.set j { s with solValueCalculator := calculator })) 0 hserve his hus c3
      (hreach.inv.wf.tok_u64 _ _ c3) hr hp hset hle hfit⟩
    simp only [List.cons_append, List.nil_append, processIx, processSetSolValueCalculator, SetCalcAccs.load, bind_ok, Except.ok.injEq, exists_eq_left', require_ok, exists_const, checkKeys_ok,
      checkWritable_ok, checkSigner_ok, getPool_ok, mintProgram_ok, matchLst_ok, poolReserves_ok, hm, hp, hi, Prod.exists, Prod.mk.injEq,
      Option.some.injEq, List.forall_mem_cons, k1, k2, k3, k4, k5, s1, w3, w5, verifyActive_ok]
    have hfin : ({ w.setLsts (w.ctl.lsts.set j { s with solValueCalculator := calculator }) with
        ctl := (w.setLsts (w.ctl.lsts.set j { s with solValueCalculator := calculator })).ctl.synced p j { s with solValueCalculator := calculator } r.min } : World) =
        { w with ctl := { w.ctl with
            pool := some { p with totalSolValue := p.totalSolValue - s.solValue + r.min }
            lsts := w.ctl.lsts.map fun t => if t.mint = s.mint then { t with solValueCalculator := calculator, solValue := r.min } else t } } := by
      rw [← set_eq_map (fun t => { t with solValueCalculator := calculator, solValue := r.min }) hreach.inv.ctl.mints hi]
      simp [World.setLsts, Ctl.synced]
    constructor
    · rintro ⟨_, _, s', ⟨rfl, _⟩, _, hres, _, _, _, e1, c, hc, e2, e3⟩
      rw [hx] at hc; injection hc with hc; subst hc
      rw [hrun] at e3
      injection e3 with e3
      exact ⟨e1, e2, e3 ▸ hfin⟩
    · rintro ⟨e1, e2, e3⟩
      exact ⟨trivial, trivial, s, ⟨rfl, rfl⟩, _, c7, by simp, by simp, by simp, e1, _, hx, e2, by rw [hrun, e3, hfin]⟩

/-- C60, `withdraw-protocol-fees`, when it goes on: exactly if the pool exists, its beneficiary's key is given, the accumulator exists, and so does the account
to withdraw to unless it is the beneficiary's own associated token account. -/
theorem C60_withdraw_runs {payer mint tp : Pubkey} {target : Option Pubkey} {amount : Option Nat} :
    (∃ ixs, AdminCli.withdraw cfg w signer payer mint tp target amount = .ok ixs) ↔
      (∃ p, w.ctl.pool = some p ∧ p.protocolFeeBeneficiary = signer) ∧
      w.led.tok (cfg.findAta cfg.protocolFee tp mint).1 ≠ none ∧
      (w.led.tok (target.getD (cfg.findAta signer tp mint).1) ≠ none ∨ target.getD (cfg.findAta signer tp mint).1 = (cfg.findAta signer tp mint).1) := by
  simp only [AdminCli.withdraw, AdminCli.withdrawTarget, fetchPool, bind_ok, okOr_ok, require_ok, exists_const, pure_ok]
  constructor
  · rintro ⟨ixs, p, hp, acc, hacc, hb, cr, hcr, _⟩
    refine ⟨⟨p, hp, hb⟩, by simp [hacc], ?_⟩
    cases target with
    | none => exact .inr rfl
    | some k =>
      simp only [Option.getD_some]
      by_cases hk : k = (cfg.findAta signer tp mint).1
      · exact .inr hk
      · left
        intro h
        simp [h, hk, AdminCli.withdrawCreate] at hcr
  · rintro ⟨⟨p, hp, hb⟩, hacc, ht⟩
    obtain ⟨acc, hacc⟩ := Option.ne_none_iff_exists'.1 hacc
    cases target with
    | none =>
      simp only [Option.getD_none] at ht
      cases hx : w.led.tok (cfg.findAta signer tp mint).1 with
      | none => exact ⟨_, p, hp, acc, hacc, hb, [AdminCli.createAtaIx cfg payer signer mint tp], by simp [hx, AdminCli.withdrawCreate], rfl⟩
      | some x => exact ⟨_, p, hp, acc, hacc, hb, [], by simp [hx, AdminCli.withdrawCreate], rfl⟩
    | some k =>
      simp only [Option.getD_some] at ht
      cases hx : w.led.tok k with
      | none =>
        have hk : k = (cfg.findAta signer tp mint).1 := by rcases ht with h | h <;> [exact absurd hx h; exact h]
        exact ⟨_, p, hp, acc, hacc, hb, [AdminCli.createAtaIx cfg payer signer mint tp], by subst hk; simp [hx, AdminCli.withdrawCreate], rfl⟩
      | some x => exact ⟨_, p, hp, acc, hacc, hb, [], by simp [hx, AdminCli.withdrawCreate], rfl⟩

/-- The withdrawal instruction of the command, on any state with the same accumulator. -/
theorem withdrawIx_results {mint target : Pubkey} {m : Mint} {fa : TokenAcc} {t : TokenAcc} {amt : Nat} (hp : w.ctl.pool = some p)
    (hm : w.led.mints mint = some m) (hfa : w.led.tok (cfg.findAta cfg.protocolFee m.program mint).1 = some fa) (ho : fa.owner = cfg.protocolFee)
    (hfm : fa.mint = mint) (hfp : fa.program = m.program) (ht : w.led.tok target = some t) (hu : amt < U64) :
    let acc := (cfg.findAta cfg.protocolFee m.program mint).1
    Results cfg L w ⟨cfg.programId, [sgMeta p.protocolFeeBeneficiary, wrMeta target, wrMeta acc, wrMeta cfg.protocolFee, roMeta m.program,
        wrMeta cfg.poolState, roMeta mint], (Ix.withdrawProtocolFees amt).encode⟩ fun w' =>
      p.Active ∧ t.mint = mint ∧ t.program = m.program ∧ amt ≤ fa.amount ∧
      ((target = acc ∧ w' = w) ∨ (target ≠ acc ∧ t.amount + amt < U64 ∧
        w' = { w with led := (w.led.setTok acc (some { fa with amount := fa.amount - amt })).setTok target (some { t with amount := t.amount + amt }) })) := by
  intro acc
  refine .of _ hu fun env tx seen w' hseen => ?_
  obtain ⟨a1, _, rfl, h1, hseen⟩ := SeenAs.cons_inv hseen
  obtain ⟨a2, _, rfl, h2, hseen⟩ := SeenAs.cons_inv hseen
  obtain ⟨a3, _, rfl, h3, hseen⟩ := SeenAs.cons_inv hseen
  obtain ⟨a4, _, rfl, h4, hseen⟩ := SeenAs.cons_inv hseen
  obtain ⟨a5, _, rfl, h5, hseen⟩ := SeenAs.cons_inv hseen
  obtain ⟨a6, _, rfl, h6, hseen⟩ := SeenAs.cons_inv hseen
  obtain ⟨a7, _, rfl, h7, hseen⟩ := SeenAs.cons_inv hseen
  cases hseen
  have k1 : a1.key = p.protocolFeeBeneficiary := h1.key
  have k2 : a2.key = target := h2.key
  have k3 : a3.key = acc := h3.key
  have k4 : a4.key = cfg.protocolFee := h4.key
  have k5 : a5.key = m.program := h5.key
  have k6 : a6.key = cfg.poolState := h6.key
  have k7 : a7.key = mint := h7.key
  have s1 := h1.signer rfl
  have w2 := h2.writable rfl
  have w3 := h3.writable rfl
  have w4 := h4.writable rfl
  have w6 := h6.writable rfl
  simp only [processIx, processWithdraw, WithdrawAccs.load, bind_ok, Except.ok.injEq, exists_eq_left', require_ok, exists_const, okOr_ok, checkKeys_ok,
    checkWritable_ok, checkSigner_ok, getPool_ok, tokenBalance_ok, verifyActive_ok, pure_ok, transfer_ok, List.forall_mem_cons, k1, k2, k3, k4, k5, k6, k7,
    s1, w2, w3, w4, w6]
  constructor
  · rintro ⟨_, t', ht', p', hp', hk, _, _, ha, _, ⟨fa', hfa', rfl⟩, hen, l', ⟨m', a, b, tf⟩, rfl⟩
    rw [hp] at hp'; injection hp' with hp'; subst hp'
    rw [ht] at ht'; injection ht' with ht'; subst ht'
    rw [hfa] at hfa'; injection hfa' with hfa'; subst hfa'
    obtain ⟨f1, f2, f3, f4, f5, f6, f7, f8, f9, f10, f11⟩ := tf
    simp only at f1 f2 f3 f4 f5 f6 f7 f8 f9 f10 f11
    rw [hfa] at f3; injection f3 with f3; subst f3
    rw [ht] at f4; injection f4 with f4; subst f4
    refine ⟨ha, f8, f6, hen, ?_⟩
    rcases f11 with ⟨e1, rfl⟩ | ⟨e1, e2, rfl⟩
    · exact .inl ⟨e1.symm, rfl⟩
    · exact .inr ⟨Ne.symm e1, e2, rfl⟩
  · rintro ⟨ha, e1, e2, e3, e4⟩
    refine ⟨trivial, t, ht, p, hp, ?_, by simp, by simp, ha, _, ⟨fa, hfa, rfl⟩, e3, ?_⟩
    · simp [e1, e2, acc]
    · rcases e4 with ⟨e4, rfl⟩ | ⟨e4, e5, rfl⟩
      · exact ⟨_, ⟨m, fa, t, hm, rfl, hfa, ht, hfp, e2, hfm, e1, ho, e3, .inl ⟨e4.symm, rfl⟩⟩, rfl⟩
      · exact ⟨_, ⟨m, fa, t, hm, rfl, hfa, ht, hfp, e2, hfm, e1, ho, e3, .inr ⟨Ne.symm e4, e5, rfl⟩⟩, rfl⟩

/-- C60, `withdraw-protocol-fees`, for a listed LST: `fa` is its accumulator, `amt` the amount asked for, by default all it holds.
If the account to withdraw to exists, there is one instruction, which the beneficiary's key alone signs for; it is accepted exactly if the pool is active,
the account is a token account of this mint and program and the accumulator holds `amt`. It then moves `amt` and changes nothing else (nothing at all if
the account to withdraw to is the accumulator itself). If it does not exist, it is the beneficiary's associated token account, and a first
instruction, paid for by the payer, creates it; in the state so obtained the second is accepted exactly if the pool is active and the accumulator holds `amt`. -/
theorem C60_withdraw {payer : Pubkey} {target : Option Pubkey} {amount : Option Nat} {ixs : List TopIx} {s : LstState} {m : Mint} {fa : TokenAcc}
    (hreach : Reachable cfg L w) (hp : w.ctl.pool = some p) (hs : s ∈ w.ctl.lsts) (hm : w.led.mints s.mint = some m)
    (hfa : w.led.tok (cfg.findAta cfg.protocolFee m.program s.mint).1 = some fa) (hamt : ∀ n, amount = some n → n < U64)
    (hc : AdminCli.withdraw cfg w signer payer s.mint m.program target amount = .ok ixs) :
    let acc := (cfg.findAta cfg.protocolFee m.program s.mint).1
    let ata := (cfg.findAta signer m.program s.mint).1
    let amt := amount.getD fa.amount
    ∃ ix, Signable ix [signer] ∧
      (∀ t, w.led.tok (target.getD ata) = some t → ixs = [ix] ∧ Results cfg L w ix fun w' =>
        p.Active ∧ t.mint = s.mint ∧ t.program = m.program ∧ amt ≤ fa.amount ∧
        ((target.getD ata = acc ∧ w' = w) ∨ (target.getD ata ≠ acc ∧ t.amount + amt < U64 ∧
          w' = ⟨w.ctl, (w.led.setTok acc (some { fa with amount := fa.amount - amt })).setTok (target.getD ata)
            (some { t with amount := t.amount + amt })⟩))) ∧
      (w.led.tok (target.getD ata) = none → target.getD ata = ata ∧
        ∃ cr l, ixs = [cr, ix] ∧ Signable cr [payer] ∧ cr = AdminCli.createAtaIx cfg payer signer s.mint m.program ∧
          createAta cfg w.led ata signer m.program s.mint = .ok l ∧ l = w.led.setTok ata (some ⟨m.program, s.mint, signer, 0⟩) ∧
          Results cfg L { w with led := l } ix fun w' => p.Active ∧ amt ≤ fa.amount ∧
            w' = { w with led := (w.led.setTok acc (some { fa with amount := fa.amount - amt })).setTok ata (some ⟨m.program, s.mint, signer, amt⟩) }) := by
  intro acc ata amt
  obtain ⟨m', ra, fa', c1, c2, c3, c4, c5, c6, c7, c8, c9, c10, c11, c12⟩ := C61_canonical hreach hs
  rw [hm] at c1; injection c1 with c1; subst c1
  rw [hfa] at c8; injection c8 with c8; subst c8
  have hu : amt < U64 := by
    cases amount with
    | none => exact hreach.inv.wf.tok_u64 _ _ hfa
    | some n => exact hamt n rfl
  have htgt : (AdminCli.withdrawTarget cfg signer s.mint m.program target).1 = target.getD ata := by cases target <;> rfl
  simp only [AdminCli.withdraw, fetchPool, bind_ok, okOr_ok, require_ok, exists_const, pure_ok, htgt, hp, hfa, Option.some.injEq, exists_eq_left'] at hc
  obtain ⟨rfl, cr, hcr, rfl⟩ := hc
  refine ⟨_, ?_, fun t ht => ⟨?_, withdrawIx_results hp hm hfa c9 c10 c11 ht hu⟩, fun ht => ?_⟩
  · simp [Signable, sgMeta, roMeta, wrMeta]
  · rw [ht] at hcr
    simp [AdminCli.withdrawCreate] at hcr
    subst hcr; rfl
  · have hk : target.getD ata = ata ∧ cr = [AdminCli.createAtaIx cfg payer p.protocolFeeBeneficiary s.mint m.program] := by
      rw [ht] at hcr
      cases target with
      | none => exact ⟨rfl, by simpa [AdminCli.withdrawTarget, AdminCli.withdrawCreate, eq_comm] using hcr⟩
      | some k =>
        by_cases h : k = ata
        · simp only [AdminCli.withdrawTarget, if_pos h, AdminCli.withdrawCreate, Except.ok.injEq, ata] at hcr
          exact ⟨h, hcr.symm⟩
        · simp [AdminCli.withdrawTarget, h, AdminCli.withdrawCreate, ata] at hcr
    obtain ⟨hk, rfl⟩ := hk
    rw [hk] at ht ⊢
    refine ⟨rfl, _, _, rfl, by simp [Signable, AdminCli.createAtaIx, roMeta, wrMeta], rfl, ?_, rfl, ?_⟩
    · simp only [createAta, bind_ok, require_ok, okOr_ok, exists_const, pure_ok, hm, Option.some.injEq, exists_eq_left']
      exact ⟨rfl, ht, trivial, trivial⟩
    · have hne : acc ≠ ata := fun h => by rw [← h, hfa] at ht; cases ht
      have := withdrawIx_results (cfg := cfg) (L := L) (w := ⟨w.ctl, w.led.setTok ata (some ⟨m.program, s.mint, p.protocolFeeBeneficiary, 0⟩)⟩) (target := ata)
        (t := ⟨m.program, s.mint, p.protocolFeeBeneficiary, 0⟩) hp hm ((upd_ne _ _ hne).trans hfa) c9 c10 c11 (by simp [Ledger.setTok]) hu
      intro env tx seen w' hseen
      rw [this env tx seen w' hseen]
      simp only [Ledger.setTok, upd_same, true_and, Nat.zero_add]
      have hupd : ∀ (f : Pubkey → Option TokenAcc) (x y z : Option TokenAcc), upd (upd (upd f ata x) acc y) ata z = upd (upd f acc y) ata z := by
        intro f x y z
        funext k
        by_cases h1 : k = ata
        · subst h1; simp
        · rw [upd_ne _ _ h1, upd_ne _ _ h1]
          by_cases h2 : k = acc
          · subst h2; simp
          · rw [upd_ne _ _ h2, upd_ne _ _ h2, upd_ne _ _ h1]
      constructor
      · rintro ⟨h1, h2, h3 | ⟨_, _, h3⟩⟩
        · exact absurd h3.1.symm hne
        · exact ⟨h1, h2, by rw [h3, hupd]⟩
      · rintro ⟨h1, h2, h3⟩
        exact ⟨h1, h2, .inr ⟨Ne.symm hne, hu, by rw [h3, hupd]⟩⟩

theorem upd_upd {α : Type} (f : Pubkey → α) (k : Pubkey) (x y : α) : upd (upd f k x) k y = upd f k y := by
  funext j
  by_cases h : j = k
  · subst h; simp
  · rw [upd_ne _ _ h, upd_ne _ _ h, upd_ne _ _ h]

/-- C60, `init`: the payer and the given authority sign; the instruction is accepted exactly if that authority is the one fixed in the program, there is no
pool yet, and the LP mint is a fresh SPL mint of 9 decimals under that authority; the pool then has the default fees and pricing program and the given
authority in all its roles, and is the mint's authority. -/
theorem C60_init {payer lpMint : Pubkey} :
    Signable (AdminCli.init cfg signer payer lpMint) [payer, signer] ∧ Results cfg L w (AdminCli.init cfg signer payer lpMint) fun w' =>
      signer = cfg.initialAuthority ∧ w.ctl.pool = none ∧ ∃ m, w.led.mints lpMint = some m ∧ m.program = cfg.splToken ∧ m.supply = 0 ∧ m.decimals = 9 ∧
      m.mintAuth = some signer ∧ m.freezeAuth = some signer ∧
      w' = { ctl := { w.ctl with
          pool := some { totalSolValue := 0, tradingProtocolFeeBps := 1000, lpProtocolFeeBps := 1000, version := 1, isDisabled := 0, isRebalancing := 0, admin := signer,
                         rebalanceAuthority := signer, protocolFeeBeneficiary := signer, pricingProgram := cfg.flatFeeProgram, lpTokenMint := lpMint } }
             led := w.led.setMint lpMint (some { m with mintAuth := some cfg.poolState, freezeAuth := some cfg.poolState }) } := by
  refine ⟨by simp [Signable, AdminCli.init, sgMeta, roMeta, wrMeta], .of _ trivial fun env tx seen w' hseen => ?_⟩
  obtain ⟨a1, _, rfl, h1, hseen⟩ := SeenAs.cons_inv hseen
  obtain ⟨a2, _, rfl, h2, hseen⟩ := SeenAs.cons_inv hseen
  obtain ⟨a3, _, rfl, h3, hseen⟩ := SeenAs.cons_inv hseen
  obtain ⟨a4, _, rfl, h4, hseen⟩ := SeenAs.cons_inv hseen
  obtain ⟨a5, _, rfl, h5, hseen⟩ := SeenAs.cons_inv hseen
  obtain ⟨a6, _, rfl, h6, hseen⟩ := SeenAs.cons_inv hseen
  cases hseen
  have k1 : a1.key = payer := h1.key
  have k2 : a2.key = signer := h2.key
  have k3 : a3.key = cfg.poolState := h3.key
  have k4 : a4.key = lpMint := h4.key
  have k5 : a5.key = cfg.splToken := h5.key
  have k6 : a6.key = cfg.systemProgram := h6.key
  have s1 := h1.signer rfl
  have s2 := h2.signer rfl
  have w1 := h1.writable rfl
  have w3 := h3.writable rfl
  have w4 := h4.writable rfl
  simp only [processIx, processInitialize, InitializeAccs.load, bind_ok, Except.ok.injEq, exists_eq_left', require_ok, exists_const, okOr_ok, checkKeys_ok,
    checkWritable_ok, checkSigner_ok, pure_ok, setMintAuth_ok, setFreezeAuth_ok, List.forall_mem_cons, k1, k2, k3, k4, k5, k6, s1, s2, w1, w3, w4]
  constructor
  · rintro ⟨⟨rfl, _⟩, _, _, m, hm, e1, e2, e3, e4, _, ⟨m1, g1, _, g3, rfl⟩, _, ⟨m2, f1, _, f3, rfl⟩, rfl⟩
    rw [hm] at g1; injection g1 with g1; subst g1
    simp only [Ledger.setMint, upd_same, Option.some.injEq] at f1
    subst f1
    exact ⟨rfl, e4, m, hm, e1, e2, e3, g3, f3, by simp [Ledger.setMint, upd_upd, defaultTradingFeeBps, defaultLpFeeBps, currentProgramVers]⟩
  · rintro ⟨rfl, e4, m, hm, e1, e2, e3, e5, e6, rfl⟩
    refine ⟨by simp, by simp, by simp, m, hm, e1, e2, e3, e4, _, ⟨m, hm, e1, e5, rfl⟩, _, ⟨{ m with mintAuth := some cfg.poolState },
      by simp only [Ledger.setMint, upd_same], e1, e6, rfl⟩, ?_⟩
    simp [Ledger.setMint, upd_upd, defaultTradingFeeBps, defaultLpFeeBps, currentProgramVers]

/-! ### Non-vacuity -/

/-- The example pool's state after 7 transactions satisfies the hypotheses of all of C60, with its admin's key as the given one. -/
example : Reachable Ex.cfg .ex (Ex.st 7) ∧ (Ex.st 7).ctl.pool.isSome ∧
    (AdminCli.setAdmin Ex.cfg (Ex.st 7) 6 77).toOption.isSome ∧ (AdminCli.setProtocolFee Ex.cfg (Ex.st 7) 6 ⟨some 500, none⟩).toOption.isSome ∧
    (AdminCli.setBeneficiary Ex.cfg (Ex.st 7) 6 77).toOption.isSome ∧ (AdminCli.setPricing Ex.cfg (Ex.st 7) 6 31).toOption.isSome ∧
    (AdminCli.setRebAuth Ex.cfg (Ex.st 7) 6 77).toOption.isSome ∧ (AdminCli.disablePool Ex.cfg (Ex.st 7) 6).toOption.isSome ∧
    (AdminCli.enablePool Ex.cfg (Ex.st 7) 6).toOption.isSome ∧ (AdminCli.addAuth Ex.cfg (Ex.st 7) 6 40 50).toOption.isSome ∧
    (AdminCli.lstInput Ex.cfg (Ex.st 7) true 6 22).toOption.isSome ∧ (AdminCli.addLst Ex.cfg (Ex.st 7) 6 40 20 31).toOption.isSome ∧
    (AdminCli.removeLst Ex.cfg (Ex.st 7) 40 22).toOption.isSome ∧ (AdminCli.setCalc Ex.cfg (Ex.st 7) 6 22 31 []).toOption.isSome ∧
    (AdminCli.setAdmin Ex.cfg (Ex.st 7) 40 77).toOption = none ∧ (AdminCli.disablePool Ex.cfg (Ex.st 7) 40).toOption = none :=
  ⟨Ex.st_reachable 7, by decide +kernel⟩

/-- Disable authorities 50 and 51: 50 can take itself off the list, but not 51. -/
example : (AdminCli.removeAuth Ex.cfg (Ex.st2 11) 50 40 50).toOption.isSome ∧ (AdminCli.removeAuth Ex.cfg (Ex.st2 11) 50 40 51).toOption = none ∧
    (AdminCli.removeAuth Ex.cfg (Ex.st2 11) 6 40 51).toOption.isSome ∧ (AdminCli.disablePool Ex.cfg (Ex.st2 11) 50).toOption.isSome := by decide +kernel

/-- The beneficiary (6) has no account for mint 22, whose accumulator holds 4: two instructions, the second accepted after the first; to the existing
account 43, one instruction. -/
example : (Ex.st 7).led.tok (Ex.cfg.findAta 6 8 22).1 = none ∧ ((Ex.st 7).led.tok (Ex.cfg.findAta Ex.cfg.protocolFee 8 22).1).map (·.amount) = some 4 ∧
    (AdminCli.withdraw Ex.cfg (Ex.st 7) 6 40 22 8 none none).toOption.map List.length = some 2 ∧
    (AdminCli.withdraw Ex.cfg (Ex.st 7) 6 40 22 8 (some 43) (some 3)).toOption.map List.length = some 1 ∧
    (AdminCli.withdraw Ex.cfg (Ex.st 7) 40 40 22 8 (some 43) (some 3)).toOption = none ∧
    (((AdminCli.withdraw Ex.cfg (Ex.st 7) 6 40 22 8 none none).toOption.bind fun ixs => ixs[1]?).bind fun ix =>
      (createAta Ex.cfg (Ex.st 7).led (Ex.cfg.findAta 6 8 22).1 6 8 22).toOption.bind fun l =>
      (processInstruction Ex.cfg .ex Ex.env ⟨[], 0⟩ { Ex.st 7 with led := l } ix.program ix.accs ix.data).toOption.bind fun w' =>
        (w'.led.tok (Ex.cfg.findAta 6 8 22).1).map (·.amount)) = some 4 := by decide +kernel

/-- The instruction of `init` is accepted in the fresh example ledger. -/
example : ((processInstruction Ex.cfg .ex Ex.env ⟨[], 0⟩ Ex.w0 Ex.cfg.programId (AdminCli.init Ex.cfg 6 40 20).accs (AdminCli.init Ex.cfg 6 40 20).data).toOption.bind
    fun w' => w'.ctl.pool.map (·.lpTokenMint)) = some 20 := by decide +kernel

end
end S

import Verif.Tx
/-
Helper lemmas: what a successful run of each building block tells.
-/
set_option autoImplicit false
namespace S

theorem checkKeys_ok {ps : List (Pubkey × Pubkey)} {u : Unit} : checkKeys ps = .ok u ↔ ∀ p ∈ ps, p.1 = p.2 :=
  require_ok
theorem checkWritable_ok {as : List Acc} {u : Unit} : checkWritable as = .ok u ↔ ∀ a ∈ as, a.writable = true :=
  require_ok
theorem checkSigner_ok {as : List Acc} {u : Unit} : checkSigner as = .ok u ↔ ∀ a ∈ as, a.signer = true :=
  require_ok

theorem getPool_ok {w : World} {p : PoolState} : getPool w = .ok p ↔ w.ctl.pool = some p := okOr_ok

theorem matchLst_ok {m : Pubkey} {ls : List LstState} {i : Nat} {s : LstState} :
    matchLst m ls i = .ok s ↔ ls[i]? = some s ∧ s.mint = m := by
  simp only [matchLst, bind_ok, require_ok, exists_const, okOr_ok, pure_ok]
  constructor
  · rintro ⟨a, h, h', rfl⟩; exact ⟨h, h'.symm⟩
  · rintro ⟨h, h'⟩; exact ⟨s, h, h'.symm, rfl⟩

theorem poolReserves_ok {cfg : Cfg} {s : LstState} {tp k : Pubkey} :
    poolReserves cfg s tp = .ok k ↔ cfg.ata cfg.poolState tp s.mint s.poolReservesBump = some k := okOr_ok
theorem feeAccumulator_ok {cfg : Cfg} {s : LstState} {tp k : Pubkey} :
    feeAccumulator cfg s tp = .ok k ↔ cfg.ata cfg.protocolFee tp s.mint s.protocolFeeAccumulatorBump = some k :=
  okOr_ok

theorem mintProgram_ok {l : Ledger} {k p : Pubkey} :
    mintProgram l k = .ok p ↔ ∃ m, l.mints k = some m ∧ m.program = p := by
  simp only [mintProgram, bind_ok, okOr_ok, pure_ok]
theorem tokenBalance_ok {l : Ledger} {k : Pubkey} {n : Nat} :
    tokenBalance l k = .ok n ↔ ∃ a, l.tok k = some a ∧ a.amount = n := by
  simp only [tokenBalance, bind_ok, okOr_ok, pure_ok]
theorem mintSupply_ok {l : Ledger} {k : Pubkey} {n : Nat} :
    mintSupply l k = .ok n ↔ ∃ m, l.mints k = some m ∧ m.supply = n := by
  simp only [mintSupply, bind_ok, okOr_ok, pure_ok]
theorem totalSolValue_ok {w : World} {n : Nat} :
    totalSolValue w = .ok n ↔ ∃ p, w.ctl.pool = some p ∧ p.totalSolValue = n := by
  simp only [totalSolValue, bind_ok, getPool_ok, pure_ok]

theorem verifyActive_ok {p : PoolState} {u : Unit} :
    verifyActive p = .ok u ↔ p.isRebalancing = 0 ∧ p.isDisabled = 0 := by
  simp [verifyActive, bind_ok, require_ok, exists_const]

theorem verifyInputEnabled_ok {s : LstState} {u : Unit} :
    verifyInputEnabled s = .ok u ↔ s.isInputDisabled = 0 := by
  simp [verifyInputEnabled, require_ok]

theorem verifyAdminOrAuth_ok {k : Pubkey} {p : PoolState} {as : List Pubkey} {u : Unit} :
    verifyAdminOrAuth k p as = .ok u ↔ k = p.admin ∨ k ∈ as := require_ok

theorem ofSuffix_ok {m : Pubkey} {suf : List Acc} {c : CalcCpi} :
    CalcCpi.ofSuffix m suf = .ok c ↔ ∃ a r, suf = a :: r ∧ c = ⟨a.key, m, r⟩ := by
  unfold CalcCpi.ofSuffix
  split
  · simp
  · rename_i a r
    constructor
    · intro h; injection h with h; exact ⟨a, r, rfl, h.symm⟩
    · rintro ⟨a', r', h, rfl⟩; injection h with h1 h2; subst h1; subst h2; rfl

theorem verifyCalcCpi_ok {ls : List LstState} {m : Pubkey} {suf : List Acc} {i : Nat} {c : CalcCpi} :
    verifyCalcCpi ls m suf i = .ok c ↔
      ∃ a r s, suf = a :: r ∧ c = ⟨a.key, m, r⟩ ∧ ls[i]? = some s ∧ a.key = s.solValueCalculator := by
  simp only [verifyCalcCpi, bind_ok, require_ok, exists_const, ofSuffix_ok, okOr_ok, pure_ok]
  constructor
  · rintro ⟨c', ⟨a, r, rfl, rfl⟩, s, hs, hp, rfl⟩; exact ⟨a, r, s, rfl, rfl, hs, hp⟩
  · rintro ⟨a, r, s, rfl, rfl, hs, hp⟩; exact ⟨_, ⟨a, r, rfl, rfl⟩, s, hs, hp, rfl⟩

theorem verifyPriceCpi_ok {p : PoolState} {ms : List Pubkey} {suf : List Acc} {c : PriceCpi} :
    verifyPriceCpi p ms suf = .ok c ↔
      ∃ a r, suf = a :: r ∧ c = ⟨a.key, ms, r⟩ ∧ a.key = p.pricingProgram := by
  unfold verifyPriceCpi
  split
  · simp
  · rename_i a r
    simp only [bind_ok, require_ok, exists_const, pure_ok]
    constructor
    · rintro ⟨h, rfl⟩; exact ⟨a, r, rfl, rfl, h⟩
    · rintro ⟨a', r', h, rfl, h'⟩; injection h with h1 h2; subst h1; subst h2; exact ⟨h', rfl⟩

theorem splitAt_ok {as a b : List Acc} {n : Nat} :
    splitAt as n = .ok (a, b) ↔ n ≤ as.length ∧ a = as.take n ∧ b = as.drop n := by
  simp only [splitAt, bind_ok, require_ok, exists_const, pure_ok, Prod.mk.injEq]
  constructor
  · rintro ⟨h, rfl, rfl⟩; exact ⟨h, rfl, rfl⟩
  · rintro ⟨h, rfl, rfl⟩; exact ⟨h, rfl, rfl⟩

theorem calcAsk_ok {cfg : Cfg} {env : Env cfg} {n : Nat} {w w' : World} {c : CalcCpi} {q : CalcReq} {r : Range} :
    c.ask env n w q = .ok (r, w') ↔ ∃ l, env.askCalc n w c.program c.metas q = .ok (r, l) ∧
      r.min < U64 ∧ r.max < U64 ∧ w' = { w with led := l } := by
  simp only [CalcCpi.ask, bind_ok, Prod.exists, require_ok, exists_const, pure_ok, Prod.mk.injEq]
  constructor
  · rintro ⟨r', l, h, ⟨h1, h2⟩, rfl, rfl⟩; exact ⟨l, h, h1, h2, rfl⟩
  · rintro ⟨l, h, h1, h2, rfl⟩; exact ⟨r, l, h, ⟨h1, h2⟩, rfl, rfl⟩

theorem priceAsk_ok {cfg : Cfg} {env : Env cfg} {n : Nat} {w w' : World} {c : PriceCpi} {q : PriceReq} {r : Nat} :
    c.ask env n w q = .ok (r, w') ↔ ∃ l, env.askPrice n w c.program c.metas q = .ok (r, l) ∧
      r < U64 ∧ w' = { w with led := l } := by
  simp only [PriceCpi.ask, bind_ok, Prod.exists, require_ok, exists_const, pure_ok, Prod.mk.injEq]
  constructor
  · rintro ⟨r', l, h, h1, rfl, rfl⟩; exact ⟨l, h, h1, rfl⟩
  · rintro ⟨l, h, h1, rfl⟩; exact ⟨r, l, h, h1, rfl, rfl⟩

theorem syncedTotal_ok {t o n r : Nat} : syncedTotal t o n = .ok r ↔ o ≤ t ∧ r = t - o + n ∧ t - o + n < U64 := by
  simp only [syncedTotal, bind_ok, subU64_ok, addU64_ok]
  constructor
  · rintro ⟨x, ⟨rfl, h⟩, rfl, h'⟩; exact ⟨h, rfl, h'⟩
  · rintro ⟨h, rfl, h'⟩; exact ⟨_, ⟨rfl, h⟩, rfl, h'⟩

/-- What one entry's recorded value becoming `v` does to the controller's accounts. -/
structure SyncFacts (c : Ctl) (i v : Nat) (c' : Ctl) (p : PoolState) (s : LstState) : Prop where
  pool : c.pool = some p
  lst : c.lsts[i]? = some s
  le : s.solValue ≤ p.totalSolValue
  fits : p.totalSolValue - s.solValue + v < U64
  eq : c' = { c with pool := some { p with totalSolValue := p.totalSolValue - s.solValue + v },
                     lsts := c.lsts.set i { s with solValue := v } }

theorem ctlSync_ok {c c' : Ctl} {i v : Nat} : c.sync i v = .ok c' ↔ ∃ p s, SyncFacts c i v c' p s := by
  simp only [Ctl.sync, bind_ok, okOr_ok, syncedTotal_ok, pure_ok]
  constructor
  · rintro ⟨p, hp, s, hs, t, ⟨h1, rfl, h2⟩, rfl⟩; exact ⟨p, s, hp, hs, h1, h2, rfl⟩
  · rintro ⟨p, s, hp, hs, h1, h2, rfl⟩; exact ⟨p, hp, s, hs, _, ⟨h1, rfl, h2⟩, rfl⟩

/-- One successful `syncUnchecked`. -/
structure SyncRun {cfg : Cfg} (env : Env cfg) (n : Nat) (w : World) (res : Pubkey) (c : CalcCpi) (i : Nat)
    (w' : World) (acc : TokenAcc) (r : Range) : Prop where
  tok : w.led.tok res = some acc
  ask : env.askCalc n w c.program c.metas (.lstToSol acc.amount) = .ok (r, w'.led)
  rmin : r.min < U64
  rmax : r.max < U64
  sync : w.ctl.sync i r.min = .ok w'.ctl

theorem syncUnchecked_ok {cfg : Cfg} {env : Env cfg} {n : Nat} {w : World} {res : Pubkey} {c : CalcCpi} {i : Nat}
    {w' : World} :
    syncUnchecked env n w res c i = .ok w' ↔ ∃ acc r, SyncRun env n w res c i w' acc r := by
  simp only [syncUnchecked, bind_ok, tokenBalance_ok, Prod.exists, calcAsk_ok, pure_ok]
  constructor
  · rintro ⟨_, ⟨acc, hb, rfl⟩, r, w1, ⟨l, h, h1, h2, rfl⟩, c', hc, rfl⟩
    exact ⟨acc, r, hb, h, h1, h2, hc⟩
  · rintro ⟨acc, r, hb, h, h1, h2, hc⟩
    exact ⟨_, ⟨acc, hb, rfl⟩, r, _, ⟨_, h, h1, h2, rfl⟩, _, hc, rfl⟩

end S

import Verif.Proofs.SysLive
/-
C88: with the programs of the repository deployed together and in working order, liquidity providers can redeem.
-/
set_option autoImplicit false
namespace S
variable {sc : SysCfg} {L : RatioLib}

/-! ### Specification -/

/-- The calculator program `prog` of the LST `mint`, called with the mint and the further accounts `accs`, is in working order: it is the wrapped SOL
calculator, or that of a stake pool which is usable this epoch, with the figures `cal`, and whose program has not been upgraded since the calculator's
manager last recorded its state. -/
def Sys.CalcWorks (L : RatioLib) (s : Sys sc) (o : Outside sc) (prog mint : Pubkey) (accs : List Acc) (cal : AnyCalc) : Prop :=
  (prog = sc.wsolCalc ∧ mint = sc.wsolMint ∧ accs = [] ∧ cal = .wsol) ∨
  ∃ pc ∈ sc.pools, prog = pc.programId ∧ ∃ pool pd st, accs = [roMeta pc.stateId, roMeta pool, roMeta pc.poolProgram, roMeta pd] ∧
    UsablePool pc o.chain pool mint cal ∧ PoolCode pc o.chain pd ∧ s.calc L pc = some st ∧ DeployedAt o.chain pd st.lastUpgradeSlot

/-- The pricing program `prog`, called with the LST's mint and the further accounts `accs`, takes a withdrawal fee of `bps` basis points: it is the
flat-fee program, set up with that fee, or the no-fee program. -/
def Sys.WithdrawalFee (L : RatioLib) (s : Sys sc) (prog : Pubkey) (accs : List Acc) (bps : Nat) : Prop :=
  (prog = sc.fc.programId ∧ accs = [roMeta sc.fc.stateId] ∧ ∃ st, (s.flat L).state = some st ∧ bps = st.lpWithdrawalFeeBps) ∨
  (prog = sc.noFee ∧ accs = [] ∧ bps = 0)

/-- What is left of the value `v` after a fee of `bps` basis points, rounded up. -/
def afterFee (v bps : Nat) : Nat := v - cdiv (v * bps) 10000

/-! ### Proofs -/

theorem Sys.CalcWorks.serves {s : Sys sc} {o : Outside sc} {prog mint : Pubkey} {accs : List Acc} {cal : AnyCalc} (h : s.CalcWorks L o prog mint accs cal) :
    (s.env L o).Serves L ⟨prog, roMeta mint :: accs⟩ cal := by
  intro n w ms hms
  rcases h with ⟨rfl, rfl, rfl, rfl⟩ | ⟨pc, hpc, rfl, pool, pd, st, rfl, hu, hc, hst, hd⟩
  · obtain ⟨x, l, rfl, e, -⟩ := hms.cons_inv
    have hk : (x :: l).head?.map Acc.key = some sc.wsolMint := by simpa [roMeta] using e.key
    exact ⟨fun a r hr => s.asked_wsol o (q := .lstToSol a) hk hr n w, fun a r hr => s.asked_wsol o (q := .solToLst a) hk hr n w⟩
  · have hm := hms.conversion
    exact ⟨fun a r hr => s.asked_pool o hpc hu hc hst hd (q := .lstToSol a) hm hr n w, fun a r hr => s.asked_pool o hpc hu hc hst hd (q := .solToLst a) hm hr n w⟩

theorem Sys.CalcWorks.count {s : Sys sc} {o : Outside sc} {prog mint : Pubkey} {accs : List Acc} {cal : AnyCalc} (h : s.CalcWorks L o prog mint accs cal) :
    accs.length < 255 := by
  rcases h with ⟨_, _, rfl, _⟩ | ⟨pc, hpc, rfl, pool, pd, st, rfl, _⟩ <;> simp

theorem Sys.WithdrawalFee.quotes {s : Sys sc} (o : Outside sc) {prog : Pubkey} {accs : List Acc} {bps : Nat} (h : s.WithdrawalFee L prog accs bps) (mint : Pubkey) (a v : Nat) :
    (s.env L o).Quotes ⟨prog, roMeta mint :: accs⟩ (.lpTokensToRedeem a v) (afterFee v bps) := by
  intro n w ms hms
  rcases h with ⟨rfl, rfl, st, hst, rfl⟩ | ⟨rfl, rfl, rfl⟩
  · obtain ⟨x1, l1, rfl, e1, hms⟩ := hms.cons_inv
    obtain ⟨x2, l2, rfl, e2, hms⟩ := hms.cons_inv
    have hok : (s.flat L).Ok sc.fc := C26_bounds _
    have hp : flatProcess L o.view (s.flat L) (x1 :: x2 :: l2) (PriceReq.asIx (.lpTokensToRedeem a v)) = .ok (s.flat L, some (afterFee v st.lpWithdrawalFeeBps)) := by
      simp only [PriceReq.asIx, flatProcess, flatRedeem, bind_ok, pure_ok, Prod.mk.injEq, okOr_ok, checkKeys_ok, exists_const, C25_redeem, Option.some.injEq]
      have : x2.key = sc.fc.stateId := e2.key
      exact ⟨_, ⟨by simp [this], st, hst, hok.lpFee st hst, rfl⟩, trivial, rfl⟩
    simp only [Sys.env, Sys.answerPrice, if_true, hp]
  · simp only [Sys.env, Sys.answerPrice, if_neg sc.noFee_ne_flat, if_true, PriceReq.solValue, afterFee, Nat.mul_zero, cdiv]
    rfl

theorem Sys.WithdrawalFee.count {s : Sys sc} {prog : Pubkey} {accs : List Acc} {bps : Nat} (h : s.WithdrawalFee L prog accs bps) : accs.length < 255 := by
  rcases h with ⟨_, rfl, _⟩ | ⟨_, rfl, _⟩ <;> simp

theorem redeem_post {s₀ : Sys sc} (hf : s₀.Fresh) {h : List (SysTx sc)} {s : Sys sc} (hs : runSystem L s₀ h = s) (hb : s.world.led.Backed)
    {o : Outside sc} (hquiet : o.other.Quiet) {p : PoolState} (hp : s.world.ctl.pool = some p) (hdis : p.isDisabled = 0) (hreb : p.isRebalancing = 0)
    {i : Nat} {x : LstState} (hx : s.world.ctl.lsts[i]? = some x) (hi : i < 2 ^ 32) (hne : x.mint ≠ p.lpTokenMint)
    {m lm : Mint} (hm : s.world.led.mints x.mint = some m) (hlm : s.world.led.mints p.lpTokenMint = some lm)
    {cal : AnyCalc} (hu : cal.Usable) {calcAccs priceAccs : List Acc} (hcalc : s.CalcWorks L o x.solValueCalculator x.mint calcAccs cal)
    {bps : Nat} (hprice : s.WithdrawalFee L p.pricingProgram priceAccs bps)
    {reserves total v amount : Nat} {out : Range} (hres : ReservesAre sc.cfg s.world x reserves) (hfit : cal.Fits reserves)
    (htotal : total = p.totalSolValue - x.solValue + cal.payout reserves) (hfits : total < U64) (hv : v = amount * total / lm.supply)
    (hout : (cal.calculator L).solToLst (afterFee v bps) = .ok out) (hpos : 0 < out.min) (henough : v ≤ cal.payout reserves)
    {signer userLst userLp : Pubkey} (hamount : 0 < amount) (hh : Holder sc.cfg s.world p signer userLst userLp x.mint amount) :
    ∃ ix, removeLiquidityByMint sc.cfg p s.world.ctl.lsts ⟨signer, userLst, userLp, ⟨x.mint, m.program⟩, roMeta x.mint :: calcAccs, roMeta x.mint :: priceAccs⟩
        amount out.min = .ok ix ∧
      ∀ accs, SeenAs ix.accs accs → (∀ a ∈ accs, a.signer = true → a.key = signer) →
        ∃ s', SysTx.run L s [.controller o accs ix.data] = .ok s' ∧
          bal s'.world.led userLp + amount = bal s.world.led userLp ∧ bal s.world.led userLst + out.min ≤ bal s'.world.led userLst  ∧
          ∃ w', s' = { s with world := w' } ∧ Redeemed sc.cfg s.world w' p i x lm cal amount reserves := by
  have hreach : Reachable sc.cfg L s.world := hs ▸ C65_reachable hf h
  have hinv := hreach.inv
  have hcur : (cal.calculator L).lstToSol reserves = .ok (Range.single (cal.payout reserves)) := (C71_value L hu).2 ⟨rfl, hfit⟩
  obtain ⟨ix, hix, hacc⟩ := redemption_post hreach hb hp hdis hreb hx hi hne hm hlm hres hu hcalc.count hprice.count hcalc.serves hcur htotal hfits hv
    (hprice.quotes o x.mint amount v) (Nat.sub_le _ _) hout hpos hamount hh henough
  refine ⟨ix, hix, fun accs hseen hsig => ?_⟩
  obtain ⟨w', hw', hred⟩ := hacc ⟨[⟨sc.cfg.programId, accs, ix.data⟩], 0⟩ accs hseen
  have hprog : ix.program = sc.cfg.programId := by
    have := hix
    simp only [removeLiquidityByMint, bind_ok, Prod.exists, pure_ok, removeLiquidityIx] at this
    obtain ⟨_, _, _, _, _, _, _, _, _, _, _, _, _, rfl⟩ := this
    rfl
  have hw := hw'
  rw [hprog] at hw'
  obtain ⟨⟨ul, hul⟩, lp, hlp, hown, hen⟩ := hh
  have hs' := SysTx.run_single (s := s) (o := o) (fun a ha hs => by rw [hsig a ha hs, ← hown]; exact ⟨hlp.notPool, hlp.notFees⟩) hw'
  have hau : amount < U64 := Nat.lt_of_le_of_lt hen (hinv.wf.tok_u64 _ _ hlp.tok)
  have hou : out.min < U64 := (AnyCalc.solToLst_u64 hu (Nat.lt_of_le_of_lt (Nat.sub_le v _) (by omega)) hout).1
  have hseen' := redeem_seen (s.quiet hquiet) hix hau hou hseen hinv hw hul hlp hne
  exact ⟨_, hs', hseen'.1, hseen'.2, w', rfl, hred⟩

/-- C88. After any history of the deployed system: let the pool be neither disabled nor rebalancing, the LST's calculator in working order and the pricing
program be the repository's. If the reserves of the LST, at what the stake pool pays for them now, are worth at least the share `v` of `amount` LP tokens, and the
share less the withdrawal fee is worth a base unit of the LST (`out.min`), then the client library builds a redemption for the holder, and the transaction with it
goes through: the holder has `amount` LP tokens less and at least `out.min` of the LST more. The LST's input may be disabled. -/
theorem C88_redeem {s₀ : Sys sc} (hf : s₀.Fresh) {h : List (SysTx sc)} {s : Sys sc} (hs : runSystem L s₀ h = s) (hb : s.world.led.Backed)
    {o : Outside sc} (hquiet : o.other.Quiet) {p : PoolState} (hp : s.world.ctl.pool = some p) (hdis : p.isDisabled = 0) (hreb : p.isRebalancing = 0)
    {i : Nat} {x : LstState} (hx : s.world.ctl.lsts[i]? = some x) (hi : i < 2 ^ 32) (hne : x.mint ≠ p.lpTokenMint)
    {m lm : Mint} (hm : s.world.led.mints x.mint = some m) (hlm : s.world.led.mints p.lpTokenMint = some lm)
    {cal : AnyCalc} (hu : cal.Usable) {calcAccs priceAccs : List Acc} (hcalc : s.CalcWorks L o x.solValueCalculator x.mint calcAccs cal)
    {bps : Nat} (hprice : s.WithdrawalFee L p.pricingProgram priceAccs bps)
    {reserves total v amount : Nat} {out : Range} (hres : ReservesAre sc.cfg s.world x reserves) (hfit : cal.Fits reserves)
    (htotal : total = p.totalSolValue - x.solValue + cal.payout reserves) (hfits : total < U64) (hv : v = amount * total / lm.supply)
    (hout : (cal.calculator L).solToLst (afterFee v bps) = .ok out) (hpos : 0 < out.min) (henough : v ≤ cal.payout reserves)
    {signer userLst userLp : Pubkey} (hamount : 0 < amount) (hh : Holder sc.cfg s.world p signer userLst userLp x.mint amount) :
    ∃ ix, removeLiquidityByMint sc.cfg p s.world.ctl.lsts ⟨signer, userLst, userLp, ⟨x.mint, m.program⟩, roMeta x.mint :: calcAccs, roMeta x.mint :: priceAccs⟩
        amount out.min = .ok ix ∧
      ∀ accs, SeenAs ix.accs accs → (∀ a ∈ accs, a.signer = true → a.key = signer) →
        ∃ s', SysTx.run L s [.controller o accs ix.data] = .ok s' ∧
          bal s'.world.led userLp + amount = bal s.world.led userLp ∧ bal s.world.led userLst + out.min ≤ bal s'.world.led userLst := by
  obtain ⟨ix, h1, h2⟩ := redeem_post hf hs hb hquiet hp hdis hreb hx hi hne hm hlm hu hcalc hprice hres hfit htotal hfits hv hout hpos henough hamount hh
  refine ⟨ix, h1, fun accs ha hb => ?_⟩
  obtain ⟨s', g1, g2, g3, -⟩ := h2 accs ha hb
  exact ⟨s', g1, g2, g3⟩

/-- The LST `x` can pay for a share of value `v` of the pool: its calculator is in working order (called with `calcAccs`), the recorded value is what the stake pool
pays for the reserves, and the share less the fee is worth `out` base units. -/
def Sys.CanPay (L : RatioLib) (s : Sys sc) (o : Outside sc) (x : LstState) (calcAccs : List Acc) (v bps out : Nat) : Prop :=
  ∃ (cal : AnyCalc) (reserves : Nat) (r : Range), cal.Usable ∧ s.CalcWorks L o x.solValueCalculator x.mint calcAccs cal ∧
    ReservesAre sc.cfg s.world x reserves ∧ cal.Fits reserves ∧ x.solValue = cal.payout reserves ∧
    (cal.calculator L).solToLst (afterFee v bps) = .ok r ∧ r.min = out ∧ 0 < out

/-- C88. After any history of the deployed system, in a pool of `n` LSTs that is neither disabled nor rebalancing and whose recorded values are up to date, with all
calculators in working order and a pricing program of the repository, any holder of at most an `n`-th of the LP tokens can redeem them all in one transaction, for one
of the LSTs, at the full share less the withdrawal fee. -/
theorem C88_leave {s₀ : Sys sc} (hf : s₀.Fresh) {h : List (SysTx sc)} {s : Sys sc} (hs : runSystem L s₀ h = s) (hb : s.world.led.Backed)
    {o : Outside sc} (hquiet : o.other.Quiet) {p : PoolState} (hp : s.world.ctl.pool = some p) (hdis : p.isDisabled = 0) (hreb : p.isRebalancing = 0)
    (hlst : s.world.ctl.lsts ≠ []) (hlen : s.world.ctl.lsts.length ≤ 2 ^ 32) (hlpm : ∀ x ∈ s.world.ctl.lsts, x.mint ≠ p.lpTokenMint)
    {lm : Mint} (hlm : s.world.led.mints p.lpTokenMint = some lm) {bps : Nat} {priceAccs : List Acc} (hprice : s.WithdrawalFee L p.pricingProgram priceAccs bps)
    {amount : Nat} (hamount : 0 < amount) (hn : amount * s.world.ctl.lsts.length ≤ lm.supply)
    {calcAccs : LstState → List Acc} {out : LstState → Nat}
    (hwork : ∀ x ∈ s.world.ctl.lsts, s.CanPay L o x (calcAccs x) (amount * p.totalSolValue / lm.supply) bps (out x))
    {signer userLp : Pubkey} {userLst : LstState → Pubkey} (hh : ∀ x ∈ s.world.ctl.lsts, Holder sc.cfg s.world p signer (userLst x) userLp x.mint amount) :
    ∃ x ∈ s.world.ctl.lsts, ∃ m ix, s.world.led.mints x.mint = some m ∧
      removeLiquidityByMint sc.cfg p s.world.ctl.lsts
        ⟨signer, userLst x, userLp, ⟨x.mint, m.program⟩, roMeta x.mint :: calcAccs x, roMeta x.mint :: priceAccs⟩ amount (out x) = .ok ix ∧
      ∀ accs, SeenAs ix.accs accs → (∀ a ∈ accs, a.signer = true → a.key = signer) →
        ∃ s', SysTx.run L s [.controller o accs ix.data] = .ok s' ∧
          bal s'.world.led userLp + amount = bal s.world.led userLp ∧ bal s.world.led (userLst x) + out x ≤ bal s'.world.led (userLst x) := by
  have hreach : Reachable sc.cfg L s.world := hs ▸ C65_reachable hf h
  obtain ⟨i, x, hx, hle⟩ := C70_some_lst_covers hreach hp hlst hlm hn
  have hmem := List.mem_of_getElem? hx
  obtain ⟨cal, reserves, r, hu, hcw, hres, hfit, hval, hout, hro, hpos⟩ := hwork x hmem
  obtain ⟨m, rk, ak, ra, fa, la⟩ := hreach.inv.accs x hmem
  have hsv : x.solValue ≤ p.totalSolValue := by rw [hreach.inv.ctl.total p hp]; exact le_sumSol hmem
  have hi : i < 2 ^ 32 := Nat.lt_of_lt_of_le (List.getElem?_eq_some_iff.1 hx).1 hlen
  have := C88_redeem hf hs hb hquiet hp hdis hreb hx hi (hlpm x hmem) la.mint hlm hu hcw hprice hres hfit (total := p.totalSolValue) (by omega)
    (hreach.inv.ctl.total_u64 p hp) rfl hout (by omega) (by omega) hamount (hh x hmem)
  rw [hro] at this
  obtain ⟨ix, hix, hacc⟩ := this
  exact ⟨x, hmem, m, ix, la.mint, hix, hacc⟩

/-- Token programs that mint and burn as they should keep every mint backed, in the deployed system too (C44). -/
theorem system_backed {s₀ : Sys sc} {h : List (SysTx sc)} (hb : s₀.world.led.Backed)
    (hext : ∀ e ∈ systemEvents L s₀ h, ∀ f ok, e.act = .ext f ok → e.pre.world.led.Backed → (f e.pre.world.led).Backed)
    (hq : ∀ e ∈ systemEvents L s₀ h, ∀ o accs data, e.act = .controller o accs data → o.other.Quiet) : (runSystem L s₀ h).world.led.Backed := by
  obtain ⟨g1, g2⟩ := ctlHistory_run (L := L) s₀ h
  rw [← g1]
  refine C44_backed hb ?_ ?_
  · intro e he f ok hact
    rw [g2, List.mem_map] at he
    obtain ⟨e', he', rfl⟩ := he
    obtain ⟨tx, pre, act, post⟩ := e'
    cases act with
    | ext f' ok' =>
      simp only [SysEvent.ctl, SysAction.ctl, Action.ext.injEq] at hact
      subst hact
      exact hext _ he' _ ok' rfl
    | controller o accs data => cases hact
    | flat c => simp only [SysEvent.ctl, SysAction.ctl, Action.ext.injEq] at hact; subst hact; exact id
    | «calc» pc mem c => simp only [SysEvent.ctl, SysAction.ctl, Action.ext.injEq] at hact; subst hact; exact id
  · intro e he c hact
    rw [g2, List.mem_map] at he
    obtain ⟨e', he', rfl⟩ := he
    obtain ⟨tx, pre, act, post⟩ := e'
    cases act with
    | controller o accs data =>
      simp only [SysEvent.ctl, SysAction.ctl, Action.call.injEq] at hact
      subst hact
      exact pre.quiet (hq _ he' o accs data rfl)
    | ext f ok => cases hact
    | flat c => cases hact
    | «calc» pc mem c => cases hact

/-! ### The example deployment -/

namespace Ex

theorem sys_noext {t : SysTx sysc} (ht : t ∈ sysHist) {x : SysStep sysc} (hx : x ∈ t) {f : Ledger → Ledger} {ok : ∀ l : Ledger, l.ExtOk sysc.cfg (f l)} :
    .ext f ok ∉ x.actions := by
  intro ha
  simp only [sysHist, List.mem_append, List.mem_map, List.mem_cons, List.not_mem_nil, or_false] at ht
  rcases ht with ⟨c, _, rfl⟩ | ht
  · simp only [sysFlat, List.mem_cons, List.not_mem_nil, or_false] at hx
    subst hx; simp [SysStep.actions] at ha
  · rcases ht with rfl | rfl | rfl | rfl | rfl | rfl | rfl | rfl | rfl | rfl | rfl | rfl <;>
      simp only [sysCall, sysLido, List.mem_cons, List.not_mem_nil, or_false] at hx <;> subst hx <;>
      simp [SysStep.actions] at ha

theorem sysAt_backed (n : Nat) : (sysAt n).world.led.Backed := by
  refine system_backed (L := .ex) (s₀ := sys0) (h := sysHist.take n) w0_backed ?_ ?_
  · intro e he f ok ha
    obtain ⟨t, h1, x, h2, h3⟩ := systemEvents_act he
    rw [ha] at h3
    exact absurd h3 (sys_noext (List.mem_of_mem_take h1) h2)
  · intro e he o accs data ha
    obtain ⟨t, h1, x, h2, h3⟩ := systemEvents_act he
    rw [ha] at h3
    obtain ⟨slot, rfl⟩ := sys_outside (List.mem_of_mem_take h1) h2 h3
    exact Env.pure_quiet

/-- After 19 transactions: two LSTs, all values up to date, the flat-fee program with a withdrawal fee of 25 basis points. -/
theorem leaving_pool : (sysAt 19).world.ctl.pool.map (fun p => (p.totalSolValue, p.isDisabled, p.isRebalancing, p.lpTokenMint, p.pricingProgram)) = some (60014, 0, 0, 20, 7) := by
  decide +kernel
theorem leaving_lsts : (sysAt 19).world.ctl.lsts.map (fun s => (s.mint, s.solValue, s.solValueCalculator)) = [(21, 36008, 31), (22, 24006, 32)] := by decide +kernel
theorem leaving_mints : (sysAt 19).world.led.mints 20 = some ⟨8, 60000, 9, some 1, some 1⟩ ∧ (sysAt 19).world.led.mints 21 = some ⟨8, 1000000, 9, none, none⟩ ∧
    (sysAt 19).world.led.mints 22 = some ⟨8, 1000000, 9, none, none⟩ := by decide +kernel
theorem leaving_toks : (sysAt 19).world.led.tok 41 = some ⟨8, 21, 40, 963992⟩ ∧ (sysAt 19).world.led.tok 42 = some ⟨8, 22, 40, 983996⟩ ∧
    (sysAt 19).world.led.tok 43 = some ⟨8, 20, 40, 60000⟩ := by decide +kernel
theorem leaving_res : (sysAt 19).world.ctl.lsts.map (fun s => (cfg.ata cfg.poolState 8 s.mint s.poolReservesBump).bind
    fun k => ((sysAt 19).world.led.tok k).map TokenAcc.amount) = [some 36008, some 16004] := by decide +kernel
theorem leaving_flat : ((sysAt 19).flat .ex).state = some ⟨305, 25⟩ ∧ (sysAt 19).calc .ex jup.lido = some ⟨602, 5000⟩ := by decide +kernel

theorem wallet {w : World} {k mint : Pubkey} {a : TokenAcc} {m : Mint} (hk : w.led.tok k = some a) (hm : w.led.mints mint = some m) (h1 : a.program = m.program)
    (h2 : a.mint = mint) (h3 : a.owner = 40) : Wallet cfg w.led k mint a :=
  ⟨hk, fun m' h => by rw [hm] at h; injection h with h; rw [← h]; exact h1, h2, by rw [h3]; decide, by rw [h3]; decide⟩

theorem ok_of {α : Type} {x : R α} {a : α} (h : x.toOption = some a) : x = .ok a := by
  cases x with
  | error e => cases h
  | ok y => injection h with h; rw [h]

theorem two_of {α β : Type} {l : List α} {f : α → β} {x y : β} (h : l.map f = [x, y]) : ∃ a b, l = [a, b] ∧ f a = x ∧ f b = y := by
  match l, h with
  | [a, b], h => simp only [List.map_cons, List.map_nil, List.cons.injEq, and_true] at h; exact ⟨a, b, rfl, h⟩

theorem lidoWorks : (sysAt 19).CalcWorks .ex (outside 0 5000) 32 22 [roMeta 701, roMeta 700, roMeta 702, roMeta 703] (.lido ⟨0, 2, 3⟩) := by
  refine .inr ⟨jup.lido, by simp [sysc], rfl, 700, 703, ⟨602, 5000⟩, rfl, ⟨⟨0, 2, 3⟩, rfl, rfl, rfl, readLido_ok.1 ?_, rfl⟩, rfl, leaving_flat.2, readProgdataMeta_ok.1 ⟨none, ?_⟩⟩
  · exact ok_of lido_read
  · exact ok_of (by decide +kernel)

/-- Half of the LP tokens leave the example's deployment in one transaction. -/
theorem sysLeave : ∃ x ∈ (sysAt 19).world.ctl.lsts, ∃ m ix p, (sysAt 19).world.led.mints x.mint = some m ∧ (sysAt 19).world.ctl.pool = some p ∧
    removeLiquidityByMint cfg p (sysAt 19).world.ctl.lsts ⟨40, if x.mint = 21 then 41 else 42, 43, ⟨x.mint, m.program⟩,
      roMeta x.mint :: (if x.mint = 21 then [] else [roMeta 701, roMeta 700, roMeta 702, roMeta 703]), [roMeta x.mint, roMeta 300]⟩
      30000 (if x.mint = 21 then 29931 else 19954) = .ok ix ∧
    ∀ accs, SeenAs ix.accs accs → (∀ a ∈ accs, a.signer = true → a.key = (40 : Pubkey)) → ∃ s', SysTx.run .ex (sysAt 19) [.controller (outside 0 5000) accs ix.data] = .ok s' ∧
      bal s'.world.led 43 + 30000 = bal (sysAt 19).world.led 43 ∧
      bal (sysAt 19).world.led (if x.mint = 21 then 41 else 42) + (if x.mint = 21 then 29931 else 19954) ≤ bal s'.world.led (if x.mint = 21 then 41 else 42) := by
  obtain ⟨p, hp, e⟩ := of_map leaving_pool
  simp only [Prod.mk.injEq] at e
  obtain ⟨e1, e2, e3, e4, e5⟩ := e
  obtain ⟨m0, m1, m2⟩ := leaving_mints
  obtain ⟨t1, t2, t3⟩ := leaving_toks
  have hr := leaving_res
  obtain ⟨a, b, hls, ha, hb⟩ := two_of leaving_lsts
  simp only [Prod.mk.injEq] at ha hb
  obtain ⟨a1, a2, a3⟩ := ha
  obtain ⟨b1, b2, b3⟩ := hb
  rw [hls] at hr
  simp only [List.map_cons, List.map_nil, List.cons.injEq, and_true] at hr
  have key := C88_leave (L := .ex) (s₀ := sys0) (h := sysHist.take 19) (s := sysAt 19) (o := outside 0 5000) sys0_fresh rfl (sysAt_backed 19) Env.pure_quiet hp e2 e3
    (by rw [hls]; simp) (by rw [hls]; simp) (by rw [hls]; simp [a1, b1, e4]) (by rw [e4]; exact m0)
    (bps := 25) (priceAccs := [roMeta 300]) (.inl ⟨e5, rfl, _, leaving_flat.1, rfl⟩) (amount := 30000) (by decide) (by rw [hls]; simp)
    (calcAccs := fun x => if x.mint = 21 then [] else [roMeta 701, roMeta 700, roMeta 702, roMeta 703])
    (out := fun x => if x.mint = 21 then 29931 else 19954) (signer := 40) (userLp := 43) (userLst := fun x => if x.mint = 21 then 41 else 42) (by
      rw [hls, e1]
      intro s hs
      simp only [List.mem_cons, List.not_mem_nil, or_false] at hs
      rcases hs with rfl | rfl
      · exact ⟨.wsol, 36008, ⟨29931, 29931⟩, True.intro, .inl ⟨a3, a1, by simp [a1], rfl⟩, reservesAre (by rw [a1]; exact m1) hr.1, trivial, by rw [a2]; rfl,
          rfl, by simp [a1], by simp [a1]⟩
      · exact ⟨.lido ⟨0, 2, 3⟩, 16004, ⟨19954, 19955⟩, ⟨by decide, by decide⟩, by rw [b3, b1]; exact lidoWorks,
          reservesAre (by rw [b1]; exact m2) hr.2, show 16004 * 3 / 2 < U64 by decide, by rw [b2]; rfl, by rfl, by simp [b1], by simp [b1]⟩) (by
      rw [hls]
      intro s hs
      simp only [List.mem_cons, List.not_mem_nil, or_false] at hs
      rcases hs with rfl | rfl
      · exact ⟨⟨_, by rw [if_pos a1, a1]; exact wallet t1 m1 rfl rfl rfl⟩, _, by rw [e4]; exact wallet t3 m0 rfl rfl rfl, rfl, by decide⟩
      · exact ⟨⟨_, by rw [if_neg (by rw [b1]; decide), b1]; exact wallet t2 m2 rfl rfl rfl⟩, _, by rw [e4]; exact wallet t3 m0 rfl rfl rfl, rfl, by decide⟩)
  obtain ⟨s, hs, m, ix, hm, hix, h⟩ := key
  exact ⟨s, hs, m, ix, p, hm, hp, hix, h⟩

-- After an upgrade of Lido's program (slot 6000) that its manager has not recorded, the same redemption for Lido's token is refused.
example : ((SysTx.run .ex (sysAt 19) [.controller (outside 0 5000) sysLiqB (Ix.removeLiquidity ⟨5, 1, 10000, 1⟩).encode]).toOption.isSome,
    (SysTx.run .ex (sysAt 19) [.controller (outside 0 6000) sysLiqB (Ix.removeLiquidity ⟨5, 1, 10000, 1⟩).encode]).toOption.isSome) = (true, false) := by decide +kernel

end Ex
end S

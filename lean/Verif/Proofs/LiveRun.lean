import Verif.Proofs.Live
import Verif.Proofs.LiveCalc
import Verif.Proofs.Ledger
/-
Forward direction: from the accounts, balances and answers to a successful run. Used by C54.
-/
set_option autoImplicit false
namespace S

/-! ### Specification of what the called programs do -/

/-- Called with the accounts intended for it (as they appear to the program), the calculator program answers each request `cal` can answer,
with `cal`'s answer, and changes no token account. -/
def Env.Serves {cfg : Cfg} (L : RatioLib) (env : Env cfg) (c : Callee) (cal : AnyCalc) : Prop :=
  ∀ n w ms, SeenAs c.metas ms →
    (∀ a r, (cal.calculator L).lstToSol a = .ok r → env.askCalc n w c.program ms (.lstToSol a) = .ok (r, w.led)) ∧
    (∀ v r, (cal.calculator L).solToLst v = .ok r → env.askCalc n w c.program ms (.solToLst v) = .ok (r, w.led))

/-- Called with the accounts intended for it, the pricing program answers `r` to the request `q`, and changes no token account. -/
def Env.Quotes {cfg : Cfg} (env : Env cfg) (c : Callee) (q : PriceReq) (r : Nat) : Prop :=
  ∀ n w ms, SeenAs c.metas ms → env.askPrice n w c.program ms q = .ok (r, w.led)

theorem Env.Serves.toSol {cfg : Cfg} {L : RatioLib} {env : Env cfg} {c : Callee} {cal : AnyCalc} (h : env.Serves L c cal) {x : CalcCpi}
    (hx : c.Is x.program x.metas) {a : Nat} {r : Range} (hr : (cal.calculator L).lstToSol a = .ok r) (n : Nat) (w : World) :
    env.askCalc n w x.program x.metas (.lstToSol a) = .ok (r, w.led) := by
  rw [hx.1]; exact (h n w _ hx.2).1 a r hr

theorem Env.Serves.toLst {cfg : Cfg} {L : RatioLib} {env : Env cfg} {c : Callee} {cal : AnyCalc} (h : env.Serves L c cal) {x : CalcCpi}
    (hx : c.Is x.program x.metas) {a : Nat} {r : Range} (hr : (cal.calculator L).solToLst a = .ok r) (n : Nat) (w : World) :
    env.askCalc n w x.program x.metas (.solToLst a) = .ok (r, w.led) := by
  rw [hx.1]; exact (h n w _ hx.2).2 a r hr

theorem Env.Quotes.ask {cfg : Cfg} {env : Env cfg} {c : Callee} {q : PriceReq} {r : Nat} (h : env.Quotes c q r) {x : PriceCpi}
    (hx : c.Is x.program x.metas) (n : Nat) (w : World) : env.askPrice n w x.program x.metas q = .ok (r, w.led) := by
  rw [hx.1]; exact h n w _ hx.2

/-! ### One step -/

/-- The controller's accounts after entry `i` (`s`) of a pool `p` has been given value `v`. -/
def Ctl.synced (c : Ctl) (p : PoolState) (i : Nat) (s : LstState) (v : Nat) : Ctl :=
  { c with pool := some { p with totalSolValue := p.totalSolValue - s.solValue + v }, lsts := c.lsts.set i { s with solValue := v } }

theorem sync_live {cfg : Cfg} {L : RatioLib} {env : Env cfg} {w : World} {res : Pubkey} {c : Callee} {x : CalcCpi} {cal : AnyCalc}
    {i : Nat} {acc : TokenAcc} {p : PoolState} {s : LstState} {r : Range} (n : Nat) (hs : env.Serves L c cal) (hx : c.Is x.program x.metas)
    (hu : cal.Usable)
    (htok : w.led.tok res = some acc) (hacc : acc.amount < U64) (hr : (cal.calculator L).lstToSol acc.amount = .ok r)
    (hp : w.ctl.pool = some p) (he : w.ctl.lsts[i]? = some s) (hle : s.solValue ≤ p.totalSolValue)
    (hfit : p.totalSolValue - s.solValue + r.min < U64) :
    SyncRun env n w res x i { w with ctl := w.ctl.synced p i s r.min } acc r where
  tok := htok
  ask := hs.toSol hx hr n w
  rmin := (AnyCalc.lstToSol_u64 hu hacc hr).1
  rmax := (AnyCalc.lstToSol_u64 hu hacc hr).2
  sync := ctlSync_ok.2 ⟨p, s, hp, he, hle, hfit, rfl⟩

/-- A token account of `mint` under token program `prog`. -/
structure IsAcc (l : Ledger) (k prog mint : Pubkey) (a : TokenAcc) : Prop where
  tok : l.tok k = some a
  prog : a.program = prog
  mint : a.mint = mint

def Ledger.move (l : Ledger) (src dst : Pubkey) (a b : TokenAcc) (n : Nat) : Ledger :=
  (l.setTok src (some { a with amount := a.amount - n })).setTok dst (some { b with amount := b.amount + n })

theorem transfer_live {l : Ledger} {src dst tp auth mint : Pubkey} {n : Nat} {m : Mint} {a b : TokenAcc} (hm : l.mints mint = some m)
    (hmp : m.program = tp) (ha : IsAcc l src tp mint a) (hb : IsAcc l dst tp mint b) (ho : a.owner = auth) (hen : n ≤ a.amount)
    (hne : src ≠ dst) (hroom : b.amount + n < U64) : transfer l ⟨src, dst, tp, auth, mint⟩ n = .ok (l.move src dst a b n) :=
  transfer_ok.2 ⟨m, a, b, ⟨hm, hmp, ha.tok, hb.tok, ha.prog, hb.prog, ha.mint, hb.mint, ho, hen, .inr ⟨hne, hroom, rfl⟩⟩⟩

theorem move_mints {l : Ledger} {src dst : Pubkey} {a b : TokenAcc} {n : Nat} : (l.move src dst a b n).mints = l.mints := rfl

theorem move_src {l : Ledger} {src dst : Pubkey} {a b : TokenAcc} {n : Nat} (h : src ≠ dst) :
    (l.move src dst a b n).tok src = some { a with amount := a.amount - n } := by
  simp [Ledger.move, Ledger.setTok, upd_ne, h]

theorem move_dst {l : Ledger} {src dst : Pubkey} {a b : TokenAcc} {n : Nat} :
    (l.move src dst a b n).tok dst = some { b with amount := b.amount + n } := by
  simp [Ledger.move, Ledger.setTok]

theorem move_other {l : Ledger} {src dst k : Pubkey} {a b : TokenAcc} {n : Nat} (h1 : k ≠ src) (h2 : k ≠ dst) :
    (l.move src dst a b n).tok k = l.tok k := by
  simp [Ledger.move, Ledger.setTok, upd_ne, h1, h2]

theorem IsAcc.other {l : Ledger} {src dst k prog mint : Pubkey} {a b c : TokenAcc} {n : Nat} (h : IsAcc l k prog mint c) (h1 : k ≠ src)
    (h2 : k ≠ dst) : IsAcc (l.move src dst a b n) k prog mint c := ⟨by rw [move_other h1 h2]; exact h.tok, h.prog, h.mint⟩

theorem IsAcc.moved {l : Ledger} {src dst prog mint : Pubkey} {a b : TokenAcc} {n : Nat} (h : IsAcc l src prog mint a) (h1 : src ≠ dst) :
    IsAcc (l.move src dst a b n) src prog mint { a with amount := a.amount - n } := ⟨move_src h1, h.prog, h.mint⟩

/-- The accounts a liquidity instruction touches. -/
structure LiqLedger (l : Ledger) (k : LiqKeys) (m lm : Mint) (ra fa ul lp : TokenAcc) : Prop where
  mint : l.mints k.lstMint = some m
  mprog : m.program = k.lstTokenProgram
  lpMint : l.mints k.lpTokenMint = some lm
  lpProg : lm.program = k.lpTokenProgram
  lpAuth : lm.mintAuth = some k.poolState
  res : IsAcc l k.poolReserves k.lstTokenProgram k.lstMint ra
  resOwner : ra.owner = k.poolState
  accum : IsAcc l k.protocolFeeAccumulator k.lstTokenProgram k.lstMint fa
  userLst : IsAcc l k.userLst k.lstTokenProgram k.lstMint ul
  userLp : IsAcc l k.userLp k.lpTokenProgram k.lpTokenMint lp
  resNe : k.poolReserves ≠ k.protocolFeeAccumulator
  userNe : k.userLst ≠ k.poolReserves ∧ k.userLst ≠ k.protocolFeeAccumulator
  mintNe : k.lstMint ≠ k.lpTokenMint

theorem LiqLedger.lpNe {l : Ledger} {k : LiqKeys} {m lm : Mint} {ra fa ul lp : TokenAcc} (h : LiqLedger l k m lm ra fa ul lp) :
    k.userLp ≠ k.poolReserves ∧ k.userLp ≠ k.protocolFeeAccumulator ∧ k.userLp ≠ k.userLst := by
  have key : ∀ {x : Pubkey} {a : TokenAcc}, IsAcc l x k.lstTokenProgram k.lstMint a → k.userLp ≠ x := by
    rintro x a ha rfl
    have e := ha.tok
    rw [h.userLp.tok] at e; cases e
    exact h.mintNe (ha.mint.symm.trans h.userLp.mint)
  exact ⟨key h.res, key h.accum, key h.userLst⟩

/-! ### RemoveLiquidity -/

theorem remove_post {cfg : Cfg} {L : RatioLib} {env : Env cfg} {w : World} {k : LiqKeys} {i : Nat} {calculator pricing : Callee}
    {cal : AnyCalc} {p : PoolState} {s : LstState} {m lm : Mint} {ra fa ul lp : TokenAcc} {amount minOut v vAfter fee : Nat} {r0 out : Range}
    (hk : LiqKeysOk cfg w k i calculator pricing p s) (hl : LiqLedger w.led k m lm ra fa ul lp)
    (hwf : w.led.Wf cfg) (hu : cal.Usable) (hserves : env.Serves L calculator cal)
    (hquotes : env.Quotes pricing (.lpTokensToRedeem amount v) vAfter)
    (hamount : amount ≠ 0) (hsv : s.solValue ≤ p.totalSolValue)
    (hr0 : (cal.calculator L).lstToSol ra.amount = .ok r0)
    (hfit : p.totalSolValue - s.solValue + r0.min < U64)
    (hv : calcLpTokensSolValue L ⟨lm.supply, p.totalSolValue - s.solValue + r0.min⟩ amount = .ok v)
    (hva : vAfter ≤ v) (hvu : v < U64)
    (hout : (cal.calculator L).solToLst vAfter = .ok out)
    (hfee : calcRemoveLiquidityProtocolFees L v vAfter out.min p.lpProtocolFeeBps = .ok fee)
    (hone : out.min ≠ 0) (hmin : minOut ≤ out.min)
    (howner : lp.owner = k.signer) (hen : amount ≤ lp.amount) (hsup : amount ≤ lm.supply)
    (hres : out.min + fee ≤ ra.amount) (room1 : ul.amount + out.min < U64) (room2 : fa.amount + fee < U64)
    {accs : List Acc}
    (hseen : SeenAs (k.metas ++ (roMeta calculator.program :: calculator.metas.drop 1 ++
      roMeta pricing.program :: pricing.metas.drop 1)) accs) :
    ∃ w', processRemoveLiquidity cfg L env w accs ⟨calculator.metas.length, i, amount, minOut⟩ = .ok w' ∧
      (∃ T, w'.ctl = { w.ctl with pool := some { p with totalSolValue := T }, lsts := w.ctl.lsts.set i { s with solValue := cal.f (ra.amount - out.min - fee) } }) ∧
      w'.led = (((w.led.setTok k.userLp (some { lp with amount := lp.amount - amount })).setMint k.lpTokenMint (some { lm with supply := lm.supply - amount })).move
        k.poolReserves k.userLst ra ul out.min).move k.poolReserves k.protocolFeeAccumulator { ra with amount := ra.amount - out.min } fa fee := by
  obtain ⟨a, suf, c, hload, hver, hare, hci, hpi⟩ := verifyLiq_live (checkInput := false) hk (by simp) hseen
  obtain ⟨n1, n2, n3⟩ := hl.lpNe
  have hlt := List.getElem?_eq_some_iff.1 hk.entry
  have hra := hwf.tok_u64 _ _ hl.res.tok
  -- the ledger after each movement
  let l4 : Ledger := (w.led.setTok k.userLp (some { lp with amount := lp.amount - amount })).setMint k.lpTokenMint
    (some { lm with supply := lm.supply - amount })
  have hburn : burn w.led k.lpTokenMint k.userLp k.lpTokenProgram k.signer amount = .ok l4 :=
    burn_ok.2 ⟨lm, lp, ⟨hl.lpMint, hl.userLp.tok, hl.lpProg, hl.userLp.prog, hl.userLp.mint, howner, hen, hsup, rfl⟩⟩
  have m4 : l4.mints k.lstMint = some m := by
    show upd w.led.mints k.lpTokenMint _ k.lstMint = _
    rw [upd_ne _ _ hl.mintNe]; exact hl.mint
  have o4 : ∀ {x : Pubkey} {q : TokenAcc}, IsAcc w.led x k.lstTokenProgram k.lstMint q → k.userLp ≠ x →
      IsAcc l4 x k.lstTokenProgram k.lstMint q := fun {x q} hq hx =>
    ⟨by show upd w.led.tok k.userLp _ x = _; rw [upd_ne _ _ hx.symm]; exact hq.tok, hq.prog, hq.mint⟩
  have r4 := o4 hl.res n1
  have f4 := o4 hl.accum n2
  have u4 := o4 hl.userLst n3
  have ht1 := transfer_live (n := out.min) m4 hl.mprog r4 u4 hl.resOwner (by omega) hl.userNe.1.symm room1
  have r5 := r4.moved (b := ul) (n := out.min) hl.userNe.1.symm
  have f5 := f4.other (a := ra) (b := ul) (n := out.min) hl.resNe.symm hl.userNe.2.symm
  have ht2 := transfer_live (n := fee) (auth := k.poolState) (by rw [move_mints]; exact m4) hl.mprog r5 f5 hl.resOwner
    (by simp only; omega) hl.resNe room2
  have r6 := r5.moved (b := fa) (n := fee) hl.resNe
  -- the syncs
  have hs0 := sync_live 0 hserves hci hu hl.res.tok hra hr0 hk.pool hk.entry hsv hfit
  have hend := AnyCalc.lstToSol_down hu (a := ra.amount - out.min - fee) (b := ra.amount) (by omega) hr0
  have hmono : (Range.single (cal.f (ra.amount - out.min - fee))).min ≤ r0.min := by
    rw [(AnyCalc.is L hu).lstToSol hr0]
    exact (cal.conv hu (AnyCalc.answers_of (.inl hr0))).fmono (by omega)
  have hs3 := sync_live (w := ⟨w.ctl.synced p i s r0.min, (l4.move k.poolReserves k.userLst ra ul out.min).move k.poolReserves
    k.protocolFeeAccumulator { ra with amount := ra.amount - out.min } fa fee⟩) (p := { p with totalSolValue := p.totalSolValue - s.solValue + r0.min })
    (s := { s with solValue := r0.min }) (i := i) 3 hserves hci hu r6.tok (by simp only; omega) hend rfl
    (by simp [Ctl.synced, hlt.1]) (by simp) (by simp only; omega)
  suffices hmain : ∃ w', processRemoveLiquidity cfg L env w accs ⟨calculator.metas.length, i, amount, minOut⟩ = .ok w' ∧
      w'.ctl = (w.ctl.synced p i s r0.min).synced { p with totalSolValue := p.totalSolValue - s.solValue + r0.min } i { s with solValue := r0.min }
        (cal.f (ra.amount - out.min - fee)) ∧
      w'.led = (l4.move a.poolReserves.key a.userLst.key ra ul out.min).move a.poolReserves.key a.protocolFeeAccumulator.key
        { ra with amount := ra.amount - out.min } fa fee by
    obtain ⟨w', h1, h2, h3⟩ := hmain
    rw [hare.res, hare.userLst, hare.accum] at h3
    exact ⟨w', h1, ⟨_, by rw [h2]; simp only [Ctl.synced, List.set_set]; rfl⟩, h3⟩
  refine ⟨⟨(w.ctl.synced p i s r0.min).synced { p with totalSolValue := p.totalSolValue - s.solValue + r0.min } i { s with solValue := r0.min }
    (cal.f (ra.amount - out.min - fee)), (l4.move a.poolReserves.key a.userLst.key ra ul out.min).move a.poolReserves.key a.protocolFeeAccumulator.key
    { ra with amount := ra.amount - out.min } fa fee⟩, ?main, rfl, rfl⟩
  case main =>
    simp only [processRemoveLiquidity, bind_ok, Prod.exists, require_ok, exists_const, syncUnchecked_ok,
      calcAsk_ok, priceAsk_ok, getPool_ok, mintSupply_ok]
    have hlm := hl.lpMint
    rw [← hare.res] at hs0
    rw [← hare.res, ← hare.userLst, ← hare.accum] at hs3
    rw [← hare.lpMint] at hlm
    rw [← hare.lpMint, ← hare.userLp, ← hare.lpTp, ← hare.signer] at hburn
    rw [← hare.res, ← hare.userLst, ← hare.tp, ← hare.pool, ← hare.lstMint] at ht1
    rw [← hare.res, ← hare.userLst, ← hare.accum, ← hare.tp, ← hare.pool, ← hare.lstMint] at ht2
    have hou := AnyCalc.solToLst_u64 hu (by omega) hout
    exact ⟨hamount, a, suf, hload, c, hver, _, ⟨_, _, hs0⟩, _, rfl, _, ⟨lm, hlm, rfl⟩, v, hv, vAfter, _,
      ⟨_, hquotes.ask hpi _ _, by omega, rfl⟩, hva, out, _, ⟨_, hserves.toLst hci hout _ _, hou.1, hou.2, rfl⟩, fee, hfee, hone, hmin,
      l4, hburn, _, ht1, _, ht2, _, _, hs3⟩

theorem remove_live {cfg : Cfg} {L : RatioLib} {env : Env cfg} {w : World} {k : LiqKeys} {i : Nat} {calculator pricing : Callee}
    {cal : AnyCalc} {p : PoolState} {s : LstState} {m lm : Mint} {ra fa ul lp : TokenAcc} {amount minOut v vAfter fee : Nat} {r0 out : Range}
    (hk : LiqKeysOk cfg w k i calculator pricing p s) (hl : LiqLedger w.led k m lm ra fa ul lp)
    (hwf : w.led.Wf cfg) (hu : cal.Usable) (hserves : env.Serves L calculator cal)
    (hquotes : env.Quotes pricing (.lpTokensToRedeem amount v) vAfter)
    (hamount : amount ≠ 0) (hsv : s.solValue ≤ p.totalSolValue)
    (hr0 : (cal.calculator L).lstToSol ra.amount = .ok r0)
    (hfit : p.totalSolValue - s.solValue + r0.min < U64)
    (hv : calcLpTokensSolValue L ⟨lm.supply, p.totalSolValue - s.solValue + r0.min⟩ amount = .ok v)
    (hva : vAfter ≤ v) (hvu : v < U64)
    (hout : (cal.calculator L).solToLst vAfter = .ok out)
    (hfee : calcRemoveLiquidityProtocolFees L v vAfter out.min p.lpProtocolFeeBps = .ok fee)
    (hone : out.min ≠ 0) (hmin : minOut ≤ out.min)
    (howner : lp.owner = k.signer) (hen : amount ≤ lp.amount) (hsup : amount ≤ lm.supply)
    (hres : out.min + fee ≤ ra.amount) (room1 : ul.amount + out.min < U64) (room2 : fa.amount + fee < U64)
    {accs : List Acc}
    (hseen : SeenAs (k.metas ++ (roMeta calculator.program :: calculator.metas.drop 1 ++
      roMeta pricing.program :: pricing.metas.drop 1)) accs) :
    ∃ w', processRemoveLiquidity cfg L env w accs ⟨calculator.metas.length, i, amount, minOut⟩ = .ok w' := by
  obtain ⟨w', h, -⟩ := remove_post hk hl hwf hu hserves hquotes hamount hsv hr0 hfit hv hva hvu hout hfee hone hmin howner hen hsup hres room1 room2 hseen
  exact ⟨w', h⟩

/-! ### AddLiquidity -/

theorem add_live {cfg : Cfg} {L : RatioLib} {env : Env cfg} {w : World} {k : LiqKeys} {i : Nat} {calculator pricing : Callee}
    {cal : AnyCalc} {p : PoolState} {s : LstState} {m lm : Mint} {ra fa ul lp : TokenAcc} {amount minOut vAfter mint : Nat} {r0 v r3 : Range}
    {fees : AddLiquidityFees}
    (hk : LiqKeysOk cfg w k i calculator pricing p s) (hin : s.isInputDisabled = 0) (hl : LiqLedger w.led k m lm ra fa ul lp)
    (hwf : w.led.Wf cfg) (hu : cal.Usable) (hserves : env.Serves L calculator cal)
    (hquotes : env.Quotes pricing (.lpTokensToMint amount v.min) vAfter)
    (hamount : amount ≠ 0) (hau : amount < U64) (hsv : s.solValue ≤ p.totalSolValue)
    (hr0 : (cal.calculator L).lstToSol ra.amount = .ok r0)
    (hfit : p.totalSolValue - s.solValue + r0.min < U64)
    (hv : (cal.calculator L).lstToSol amount = .ok v)
    (hva : vAfter ≤ v.min)
    (hfees : calcAddLiquidityProtocolFees L amount v.min vAfter p.lpProtocolFeeBps = .ok fees)
    (hmint : calcLpTokensToMint L ⟨lm.supply, p.totalSolValue - s.solValue + r0.min⟩ vAfter = .ok mint)
    (hne : fees.toReserves ≠ 0 ∧ mint ≠ 0) (hmin : minOut ≤ mint)
    (howner : ul.owner = k.signer) (hen : amount ≤ ul.amount)
    (room1 : ra.amount + fees.toReserves < U64) (room2 : fa.amount + fees.toProtocolFees < U64) (room3 : lp.amount + mint < U64)
    (room4 : lm.supply + mint < U64)
    (hr3 : (cal.calculator L).lstToSol (ra.amount + fees.toReserves) = .ok r3)
    (hfit3 : p.totalSolValue - s.solValue + r3.min < U64)
    {accs : List Acc}
    (hseen : SeenAs (k.metas ++ (roMeta calculator.program :: calculator.metas.drop 1 ++
      roMeta pricing.program :: pricing.metas.drop 1)) accs) :
    ∃ w', processAddLiquidity cfg L env w accs ⟨calculator.metas.length, i, amount, minOut⟩ = .ok w' := by
  obtain ⟨a, suf, c, hload, hver, hare, hci, hpi⟩ := verifyLiq_live (checkInput := true) hk (fun _ => hin) hseen
  obtain ⟨n1, n2, n3⟩ := hl.lpNe
  have hlt := List.getElem?_eq_some_iff.1 hk.entry
  have hra := hwf.tok_u64 _ _ hl.res.tok
  have hsum : fees.toReserves + fees.toProtocolFees = amount := by
    simp only [calcAddLiquidityProtocolFees, bind_ok, subU64_ok, pure_ok] at hfees
    obtain ⟨_, _, tp, _, _, ⟨rfl, hle⟩, rfl⟩ := hfees
    show amount - tp + tp = amount
    omega
  have hvu := AnyCalc.lstToSol_u64 hu hau hv
  -- the ledger after each movement
  have ht1 := transfer_live (n := fees.toReserves) hl.mint hl.mprog hl.userLst hl.res howner (by omega) hl.userNe.1 room1
  have u5 := hl.userLst.moved (b := ra) (n := fees.toReserves) hl.userNe.1
  have f5 := hl.accum.other (a := ul) (b := ra) (n := fees.toReserves) hl.userNe.2.symm hl.resNe.symm
  have ht2 := transfer_live (n := fees.toProtocolFees) (auth := k.signer) (by rw [move_mints]; exact hl.mint) hl.mprog u5 f5 howner
    (by simp only; omega) hl.userNe.2 room2
  have r5 : IsAcc (w.led.move k.userLst k.poolReserves ul ra fees.toReserves) k.poolReserves k.lstTokenProgram k.lstMint
      { ra with amount := ra.amount + fees.toReserves } := ⟨move_dst, hl.res.prog, hl.res.mint⟩
  have r6 := r5.other (a := { ul with amount := ul.amount - fees.toReserves }) (b := fa) (n := fees.toProtocolFees) hl.userNe.1.symm hl.resNe
  have p6 := (hl.userLp.other (a := ul) (b := ra) (n := fees.toReserves) n3 n1).other
    (a := { ul with amount := ul.amount - fees.toReserves }) (b := fa) (n := fees.toProtocolFees) n3 n2
  let l5 := (w.led.move k.userLst k.poolReserves ul ra fees.toReserves).move k.userLst k.protocolFeeAccumulator
    { ul with amount := ul.amount - fees.toReserves } fa fees.toProtocolFees
  let l6 : Ledger := (l5.setTok k.userLp (some { lp with amount := lp.amount + mint })).setMint k.lpTokenMint
    (some { lm with supply := lm.supply + mint })
  have hmt : mintTo l5 k.lpTokenMint k.userLp k.lpTokenProgram k.poolState mint = .ok l6 :=
    mintTo_ok.2 ⟨lm, lp, ⟨hl.lpMint, p6.tok, hl.lpProg, p6.prog, p6.mint, hl.lpAuth, room3, room4, rfl⟩⟩
  have t6 : l6.tok k.poolReserves = some { ra with amount := ra.amount + fees.toReserves } := by
    show upd l5.tok k.userLp _ k.poolReserves = _
    rw [upd_ne _ _ n1.symm]; exact r6.tok
  -- the syncs
  have hs0 := sync_live 0 hserves hci hu hl.res.tok hra hr0 hk.pool hk.entry hsv hfit
  have hmono : r0.min ≤ r3.min := by
    rw [(AnyCalc.is L hu).lstToSol hr0, (AnyCalc.is L hu).lstToSol hr3]
    exact (cal.conv hu (AnyCalc.answers_of (.inl hr0))).fmono (Nat.le_add_right _ _)
  have hs3 := sync_live (w := ⟨w.ctl.synced p i s r0.min, l6⟩) (p := { p with totalSolValue := p.totalSolValue - s.solValue + r0.min })
    (s := { s with solValue := r0.min }) (i := i) 3 hserves hci hu t6 room1 hr3 rfl
    (by simp [Ctl.synced, hlt.1]) (by simp) (by simp only; omega)
  have hlm := hl.lpMint
  rw [← hare.res] at hs0 hs3
  rw [← hare.lpMint] at hlm
  rw [← hare.lpMint, ← hare.userLp, ← hare.lpTp, ← hare.pool] at hmt
  rw [← hare.res, ← hare.userLst, ← hare.tp, ← hare.signer, ← hare.lstMint] at ht1
  rw [← hare.res, ← hare.userLst, ← hare.accum, ← hare.tp, ← hare.signer, ← hare.lstMint] at ht2
  have el : l5 = (w.led.move a.userLst.key a.poolReserves.key ul ra fees.toReserves).move a.userLst.key a.protocolFeeAccumulator.key
      { ul with amount := ul.amount - fees.toReserves } fa fees.toProtocolFees := by rw [hare.res, hare.userLst, hare.accum]
  rw [el] at hmt
  apply Exists.intro
  simp only [processAddLiquidity, bind_ok, Prod.exists, require_ok, exists_const, syncUnchecked_ok, totalSolValue_ok,
    calcAsk_ok, priceAsk_ok, getPool_ok, mintSupply_ok, pure_ok]
  exact ⟨hamount, a, suf, hload, c, hver, _, ⟨_, _, hs0⟩, _, ⟨_, rfl, rfl⟩, v, _, ⟨_, hserves.toSol hci hv _ _, hvu.1, hvu.2, rfl⟩,
    vAfter, _, ⟨_, hquotes.ask hpi _ _, by omega, rfl⟩, hva, _, rfl, fees, hfees, _, ⟨lm, hlm, rfl⟩, mint, hmint, hne, hmin,
    _, ht1, _, ht2, _, hmt, _, ⟨_, _, hs3⟩, _, ⟨_, rfl, rfl⟩, by simp only; omega, rfl⟩

/-! ### Swaps -/

/-- The accounts a swap touches. -/
structure SwapLedger (l : Ledger) (k : SwapKeys) (ms md : Mint) (rs rd fa us ud : TokenAcc) : Prop where
  srcMint : l.mints k.srcLstMint = some ms
  srcProg : ms.program = k.srcLstTokenProgram
  dstMint : l.mints k.dstLstMint = some md
  dstProg : md.program = k.dstLstTokenProgram
  srcRes : IsAcc l k.srcPoolReserves k.srcLstTokenProgram k.srcLstMint rs
  dstRes : IsAcc l k.dstPoolReserves k.dstLstTokenProgram k.dstLstMint rd
  dstOwner : rd.owner = k.poolState
  accum : IsAcc l k.protocolFeeAccumulator k.dstLstTokenProgram k.dstLstMint fa
  userSrc : IsAcc l k.srcLstAcc k.srcLstTokenProgram k.srcLstMint us
  userDst : IsAcc l k.dstLstAcc k.dstLstTokenProgram k.dstLstMint ud
  mintNe : k.srcLstMint ≠ k.dstLstMint
  srcNe : k.srcLstAcc ≠ k.srcPoolReserves
  dstNe : k.dstLstAcc ≠ k.dstPoolReserves ∧ k.dstLstAcc ≠ k.protocolFeeAccumulator
  resNe : k.dstPoolReserves ≠ k.protocolFeeAccumulator

theorem IsAcc.ne {l : Ledger} {x y p p' m m' : Pubkey} {a b : TokenAcc} (ha : IsAcc l x p m a) (hb : IsAcc l y p' m' b) (h : m ≠ m') :
    x ≠ y := by
  rintro rfl
  have e := ha.tok
  rw [hb.tok] at e; cases e
  exact h (ha.mint.symm.trans hb.mint)

/-- The end of a swap. -/
theorem finish_live {cfg : Cfg} {L : RatioLib} {env : Env cfg} {ctl : Ctl} {l : Ledger} {k : SwapKeys} {i j : Nat} {src dst : Callee}
    {cs cd : AnyCalc} {p : PoolState} {s d : LstState} {ms md : Mint} {rs rd fa us ud : TokenAcc} {srcIn dstOut fee start : Nat} {r5 : Range}
    {a : SwapAccs} {c : SwapCpis} (hare : a.Are k)
    (hsi : src.Is c.src.program c.src.metas) (hdi : dst.Is c.dst.program c.dst.metas)
    (hl : SwapLedger l k ms md rs rd fa us ud) (hus : cs.Usable) (hud : cd.Usable) (hss : env.Serves L src cs) (hsd : env.Serves L dst cd)
    (hrdu : rd.amount < U64)
    (hp : ctl.pool = some p) (hes : ctl.lsts[i]? = some s) (hed : ctl.lsts[j]? = some d) (hij : i ≠ j)
    (hsv : s.solValue + d.solValue ≤ p.totalSolValue)
    {rd0 : Range} (hrd : (cd.calculator L).lstToSol rd.amount = .ok rd0) (hdv : cd.f rd.amount = d.solValue)
    (howner : us.owner = k.signer) (hen : srcIn ≤ us.amount) (hres : dstOut + fee ≤ rd.amount)
    (room1 : rs.amount + srcIn < U64) (room2 : fa.amount + fee < U64) (room3 : ud.amount + dstOut < U64)
    (hr5 : (cs.calculator L).lstToSol (rs.amount + srcIn) = .ok r5) (hfit : p.totalSolValue - s.solValue + r5.min < U64)
    (hno : start + s.solValue + d.solValue ≤ p.totalSolValue + cs.f (rs.amount + srcIn) + cd.f (rd.amount - (dstOut + fee))) :
    ∃ w', finishSwap env ⟨ctl, l⟩ a c i j start srcIn dstOut fee = .ok w' := by
  have hli := (List.getElem?_eq_some_iff.1 hes).1
  have hlj := (List.getElem?_eq_some_iff.1 hed).1
  have n1 := hl.userSrc.ne hl.dstRes hl.mintNe
  have n2 := hl.userSrc.ne hl.accum hl.mintNe
  have n4 := hl.srcRes.ne hl.dstRes hl.mintNe
  have n5 := hl.srcRes.ne hl.accum hl.mintNe
  have n3 := hl.userSrc.ne hl.userDst hl.mintNe
  have n6 := hl.srcRes.ne hl.userDst hl.mintNe
  have ht1 := transfer_live (n := srcIn) hl.srcMint hl.srcProg hl.userSrc hl.srcRes howner hen hl.srcNe room1
  have s1 : IsAcc (l.move k.srcLstAcc k.srcPoolReserves us rs srcIn) k.srcPoolReserves k.srcLstTokenProgram k.srcLstMint
      { rs with amount := rs.amount + srcIn } := ⟨move_dst, hl.srcRes.prog, hl.srcRes.mint⟩
  have d1 := hl.dstRes.other (a := us) (b := rs) (n := srcIn) n1.symm n4.symm
  have f1 := hl.accum.other (a := us) (b := rs) (n := srcIn) n2.symm n5.symm
  have u1 := hl.userDst.other (a := us) (b := rs) (n := srcIn) n3.symm n6.symm
  have ht2 := transfer_live (n := fee) (auth := k.poolState) (by rw [move_mints]; exact hl.dstMint) hl.dstProg d1 f1 hl.dstOwner
    (by omega) hl.resNe room2
  have s2 := s1.other (a := rd) (b := fa) (n := fee) n4 n5
  have d2 := d1.moved (b := fa) (n := fee) hl.resNe
  have u2 := u1.other (a := rd) (b := fa) (n := fee) hl.dstNe.1 hl.dstNe.2
  have ht3 := transfer_live (n := dstOut) (auth := k.poolState) (by rw [move_mints, move_mints]; exact hl.dstMint) hl.dstProg d2 u2
    hl.dstOwner (by simp only; omega) hl.dstNe.1.symm room3
  have s3 := s2.other (a := { rd with amount := rd.amount - fee }) (b := ud) (n := dstOut) n4 n6
  have d3 := d2.moved (b := ud) (n := dstOut) hl.dstNe.1.symm
  have hs5 := sync_live (w := ⟨ctl, _⟩) 5 hss hsi hus s3.tok room1 hr5 hp hes (by omega) hfit
  have hend := AnyCalc.lstToSol_down hud (a := rd.amount - fee - dstOut) (b := rd.amount) (by omega) hrd
  have hmono : cd.f (rd.amount - fee - dstOut) ≤ d.solValue := by
    rw [← hdv]
    exact (cd.conv hud (AnyCalc.answers_of (.inl hrd))).fmono (by omega)
  have h5 : r5.min = cs.f (rs.amount + srcIn) := by rw [(AnyCalc.is L hus).lstToSol hr5]; rfl
  have hsub : rd.amount - (dstOut + fee) = rd.amount - fee - dstOut := by omega
  have hs6 := sync_live (w := ⟨ctl.synced p i s r5.min, ((l.move k.srcLstAcc k.srcPoolReserves us rs srcIn).move k.dstPoolReserves
      k.protocolFeeAccumulator rd fa fee).move k.dstPoolReserves k.dstLstAcc { rd with amount := rd.amount - fee } ud dstOut⟩)
    (p := { p with totalSolValue := p.totalSolValue - s.solValue + r5.min }) (s := d) (i := j) 6 hsd hdi hud d3.tok
    (by simp only; omega) hend rfl (by simp [Ctl.synced, hij, hed]) (by simp only; omega) (by simp only [Range.single]; omega)
  rw [hsub] at hno
  have hb := hl.dstRes.tok
  rw [← hare.dstRes] at hb
  rw [← hare.srcLstAcc, ← hare.srcRes, ← hare.srcTp, ← hare.signer, ← hare.srcLstMint] at ht1
  rw [← hare.srcLstAcc, ← hare.srcRes, ← hare.dstRes, ← hare.accum, ← hare.dstTp, ← hare.pool, ← hare.dstLstMint] at ht2
  rw [← hare.srcLstAcc, ← hare.srcRes, ← hare.dstRes, ← hare.accum, ← hare.dstLstAcc, ← hare.dstTp, ← hare.pool, ← hare.dstLstMint] at ht3
  rw [← hare.srcLstAcc, ← hare.srcRes, ← hare.dstRes, ← hare.accum, ← hare.dstLstAcc] at hs5 hs6
  apply Exists.intro
  simp only [finishSwap, bind_ok, require_ok, exists_const, addU64_ok, tokenBalance_ok, syncUnchecked_ok,
    totalSolValue_ok, pure_ok]
  exact ⟨_, ⟨rfl, by omega⟩, _, ⟨rd, hb, rfl⟩, hres, _, ht1, _, ht2, _, ht3, _, ⟨_, _, hs5⟩, _, ⟨_, _, hs6⟩, _, ⟨_, rfl, rfl⟩,
    by simp only [Range.single]; omega, rfl⟩

theorem swapIn_live {cfg : Cfg} {L : RatioLib} {env : Env cfg} {w : World} {k : SwapKeys} {i j : Nat} {src dst pricing : Callee}
    {cs cd : AnyCalc} {p : PoolState} {s d : LstState} {ms md : Mint} {rs rd fa us ud : TokenAcc} {amount minOut outSol fee : Nat} {rs0 rd0 rIn rOut r5 : Range}
    (hk : SwapKeysOk cfg w k i j src dst pricing p s d) (hl : SwapLedger w.led k ms md rs rd fa us ud)
    (hwf : w.led.Wf cfg) (hus : cs.Usable) (hud : cd.Usable) (hss : env.Serves L src cs) (hsd : env.Serves L dst cd)
    (hsv : s.solValue + d.solValue ≤ p.totalSolValue)
    (hrs : (cs.calculator L).lstToSol rs.amount = .ok rs0) (hrd : (cd.calculator L).lstToSol rd.amount = .ok rd0)
    (hfit0 : p.totalSolValue - s.solValue + rs0.min < U64)
    (hfit1 : p.totalSolValue - s.solValue + rs0.min - d.solValue + rd0.min < U64)
    (hamount : amount ≠ 0) (hau : amount < U64)
    (hin : (cs.calculator L).lstToSol amount = .ok rIn) (hinne : rIn.min ≠ 0)
    (hquotes : env.Quotes pricing (.exactIn amount rIn.min) outSol) (hos : outSol < U64)
    (hout : (cd.calculator L).solToLst outSol = .ok rOut) (hone : rOut.min ≠ 0) (hmin : minOut ≤ rOut.min)
    (hfee : calcSwapProtocolFees L rIn.min outSol rOut.min p.tradingProtocolFeeBps = .ok fee)
    (howner : us.owner = k.signer) (hen : amount ≤ us.amount) (hres : rOut.min + fee ≤ rd.amount)
    (room1 : rs.amount + amount < U64) (room2 : fa.amount + fee < U64) (room3 : ud.amount + rOut.min < U64)
    (hr5 : (cs.calculator L).lstToSol (rs.amount + amount) = .ok r5)
    (hfit : p.totalSolValue - s.solValue - d.solValue + rd0.min + r5.min < U64)
    (hno : cs.f rs.amount + cd.f rd.amount ≤ cs.f (rs.amount + amount) + cd.f (rd.amount - (rOut.min + fee)))
    {accs : List Acc}
    (hseen : SeenAs (k.metas ++ (roMeta src.program :: src.metas.drop 1 ++ roMeta dst.program :: dst.metas.drop 1 ++
      roMeta pricing.program :: pricing.metas.drop 2)) accs) :
    ∃ w', processSwapExactIn cfg L env w accs ⟨src.metas.length, dst.metas.length, i, j, minOut, amount⟩ = .ok w' := by
  obtain ⟨a, suf, c, hload, hver, hare, hsi, hdi, hpi⟩ := verifySwap_live hk hseen
  have hij : i ≠ j := by
    rintro rfl
    have e := hk.srcEntry
    rw [hk.dstEntry] at e; cases e
    exact hk.ne (hk.srcMint.symm.trans hk.dstMint)
  have hli := (List.getElem?_eq_some_iff.1 hk.srcEntry).1
  have hlj := (List.getElem?_eq_some_iff.1 hk.dstEntry).1
  have hrsu := hwf.tok_u64 _ _ hl.srcRes.tok
  have hrdu := hwf.tok_u64 _ _ hl.dstRes.tok
  have hrd0 : rd0.min = cd.f rd.amount := by rw [(AnyCalc.is L hud).lstToSol hrd]; rfl
  have hrs0 : rs0.min = cs.f rs.amount := by rw [(AnyCalc.is L hus).lstToSol hrs]; rfl
  have hs0 := sync_live 0 hss hsi hus hl.srcRes.tok hrsu hrs hk.pool hk.srcEntry (by omega) hfit0
  have hs1 := sync_live (w := ⟨w.ctl.synced p i s rs0.min, w.led⟩) (i := j) (s := d)
    (p := { p with totalSolValue := p.totalSolValue - s.solValue + rs0.min }) 1 hsd hdi hud hl.dstRes.tok hrdu hrd rfl
    (by simp [Ctl.synced, hij, hk.dstEntry]) (by simp only; omega) hfit1
  obtain ⟨w', hfin⟩ := finish_live (env := env) (ctl := (w.ctl.synced p i s rs0.min).synced
      { p with totalSolValue := p.totalSolValue - s.solValue + rs0.min } j d rd0.min)
    (p := { p with totalSolValue := p.totalSolValue - s.solValue + rs0.min - d.solValue + rd0.min })
    (s := { s with solValue := rs0.min }) (d := { d with solValue := rd0.min }) (i := i) (j := j)
    (start := p.totalSolValue - s.solValue + rs0.min - d.solValue + rd0.min) (srcIn := amount) (dstOut := rOut.min) (fee := fee) (r5 := r5)
    hare hsi hdi hl hus hud hss hsd hrdu rfl (by simp [Ctl.synced, hij.symm, hli]) (by simp [Ctl.synced, hlj]) hij (by simp only; omega)
    hrd hrd0.symm howner hen hres room1 room2 room3 hr5 (by simp only; omega) (by simp only [hrs0, hrd0]; omega)
  rw [← hare.srcRes] at hs0
  rw [← hare.dstRes] at hs1
  simp only [processSwapExactIn, bind_ok, Prod.exists, require_ok, exists_const, syncUnchecked_ok, totalSolValue_ok,
    calcAsk_ok, priceAsk_ok, getPool_ok]
  have ho := AnyCalc.solToLst_u64 hud hos hout
  have hi := AnyCalc.lstToSol_u64 hus hau hin
  exact ⟨w', hamount, a, suf, hload, c, hver, _, ⟨_, _, hs0⟩, _, ⟨_, _, hs1⟩, _, ⟨_, rfl, rfl⟩, rIn, _,
    ⟨_, hss.toSol hsi hin _ _, hi.1, hi.2, rfl⟩, hinne, outSol, _, ⟨_, hquotes.ask hpi _ _, hos, rfl⟩, rOut, _,
    ⟨_, hsd.toLst hdi hout _ _, ho.1, ho.2, rfl⟩, hmin, hone, _, rfl, fee, hfee, hfin⟩

theorem swapOut_live {cfg : Cfg} {L : RatioLib} {env : Env cfg} {w : World} {k : SwapKeys} {i j : Nat} {src dst pricing : Callee}
    {cs cd : AnyCalc} {p : PoolState} {s d : LstState} {ms md : Mint} {rs rd fa us ud : TokenAcc} {amount maxIn inSol fee : Nat} {rs0 rd0 rIn rOut r5 : Range}
    (hk : SwapKeysOk cfg w k i j src dst pricing p s d) (hl : SwapLedger w.led k ms md rs rd fa us ud)
    (hwf : w.led.Wf cfg) (hus : cs.Usable) (hud : cd.Usable) (hss : env.Serves L src cs) (hsd : env.Serves L dst cd)
    (hsv : s.solValue + d.solValue ≤ p.totalSolValue)
    (hrs : (cs.calculator L).lstToSol rs.amount = .ok rs0) (hrd : (cd.calculator L).lstToSol rd.amount = .ok rd0)
    (hfit0 : p.totalSolValue - s.solValue + rs0.min < U64)
    (hfit1 : p.totalSolValue - s.solValue + rs0.min - d.solValue + rd0.min < U64)
    (hamount : amount ≠ 0) (hau : amount < U64) (hmaxne : maxIn ≠ 0)
    (hout : (cd.calculator L).lstToSol amount = .ok rOut) (houtne : rOut.max ≠ 0)
    (hquotes : env.Quotes pricing (.exactOut amount rOut.max) inSol) (his : inSol < U64)
    (hin : (cs.calculator L).solToLst inSol = .ok rIn) (hine : rIn.max ≠ 0) (hmax : rIn.max ≤ maxIn)
    (hfee : calcSwapProtocolFees L inSol rOut.max amount p.tradingProtocolFeeBps = .ok fee)
    (howner : us.owner = k.signer) (hen : rIn.max ≤ us.amount) (hres : amount + fee ≤ rd.amount)
    (room1 : rs.amount + rIn.max < U64) (room2 : fa.amount + fee < U64) (room3 : ud.amount + amount < U64)
    (hr5 : (cs.calculator L).lstToSol (rs.amount + rIn.max) = .ok r5)
    (hfit : p.totalSolValue - s.solValue - d.solValue + rd0.min + r5.min < U64)
    (hno : cs.f rs.amount + cd.f rd.amount ≤ cs.f (rs.amount + rIn.max) + cd.f (rd.amount - (amount + fee)))
    {accs : List Acc}
    (hseen : SeenAs (k.metas ++ (roMeta src.program :: src.metas.drop 1 ++ roMeta dst.program :: dst.metas.drop 1 ++
      roMeta pricing.program :: pricing.metas.drop 2)) accs) :
    ∃ w', processSwapExactOut cfg L env w accs ⟨src.metas.length, dst.metas.length, i, j, maxIn, amount⟩ = .ok w' := by
  obtain ⟨a, suf, c, hload, hver, hare, hsi, hdi, hpi⟩ := verifySwap_live hk hseen
  have hij : i ≠ j := by
    rintro rfl
    have e := hk.srcEntry
    rw [hk.dstEntry] at e; cases e
    exact hk.ne (hk.srcMint.symm.trans hk.dstMint)
  have hli := (List.getElem?_eq_some_iff.1 hk.srcEntry).1
  have hlj := (List.getElem?_eq_some_iff.1 hk.dstEntry).1
  have hrsu := hwf.tok_u64 _ _ hl.srcRes.tok
  have hrdu := hwf.tok_u64 _ _ hl.dstRes.tok
  have hrd0 : rd0.min = cd.f rd.amount := by rw [(AnyCalc.is L hud).lstToSol hrd]; rfl
  have hrs0 : rs0.min = cs.f rs.amount := by rw [(AnyCalc.is L hus).lstToSol hrs]; rfl
  have hs0 := sync_live 0 hss hsi hus hl.srcRes.tok hrsu hrs hk.pool hk.srcEntry (by omega) hfit0
  have hs1 := sync_live (w := ⟨w.ctl.synced p i s rs0.min, w.led⟩) (i := j) (s := d)
    (p := { p with totalSolValue := p.totalSolValue - s.solValue + rs0.min }) 1 hsd hdi hud hl.dstRes.tok hrdu hrd rfl
    (by simp [Ctl.synced, hij, hk.dstEntry]) (by simp only; omega) hfit1
  obtain ⟨w', hfin⟩ := finish_live (env := env) (ctl := (w.ctl.synced p i s rs0.min).synced
      { p with totalSolValue := p.totalSolValue - s.solValue + rs0.min } j d rd0.min)
    (p := { p with totalSolValue := p.totalSolValue - s.solValue + rs0.min - d.solValue + rd0.min })
    (s := { s with solValue := rs0.min }) (d := { d with solValue := rd0.min }) (i := i) (j := j)
    (start := p.totalSolValue - s.solValue + rs0.min - d.solValue + rd0.min) (srcIn := rIn.max) (dstOut := amount) (fee := fee) (r5 := r5)
    hare hsi hdi hl hus hud hss hsd hrdu rfl (by simp [Ctl.synced, hij.symm, hli]) (by simp [Ctl.synced, hlj]) hij (by simp only; omega)
    hrd hrd0.symm howner hen hres room1 room2 room3 hr5 (by simp only; omega) (by simp only [hrs0, hrd0]; omega)
  rw [← hare.srcRes] at hs0
  rw [← hare.dstRes] at hs1
  simp only [processSwapExactOut, bind_ok, Prod.exists, require_ok, exists_const, syncUnchecked_ok, totalSolValue_ok,
    calcAsk_ok, priceAsk_ok, getPool_ok]
  have ho := AnyCalc.lstToSol_u64 hud hau hout
  have hi := AnyCalc.solToLst_u64 hus his hin
  exact ⟨w', ⟨hamount, hmaxne⟩, a, suf, hload, c, hver, _, ⟨_, _, hs0⟩, _, ⟨_, _, hs1⟩, _, ⟨_, rfl, rfl⟩, rOut, _,
    ⟨_, hsd.toSol hdi hout _ _, ho.1, ho.2, rfl⟩, houtne, inSol, _, ⟨_, hquotes.ask hpi _ _, his, rfl⟩, rIn, _,
    ⟨_, hss.toLst hsi hin _ _, hi.1, hi.2, rfl⟩, hmax, hine, _, rfl, fee, hfee, hfin⟩

end S

import Verif.Props.CliFetch
import Verif.Props.CliRebalance

/-!
C104: from the chain to the chain. A rebalancing command that takes its cache from the chain and makes a plan sends a transaction that goes through, if the
instructions of the other programs deliver what they were quoted to deliver. C56 assumes that the cache shows the chain, C102 shows that it does; here the two
meet, in the deployed system of C65, and what is assumed speaks of the chain only.
-/

set_option autoImplicit false

namespace S

section
variable {J : JupCfg} {L : RatioLib} {list : List SanctumLst} {noFee : Pubkey}
  {dist : (J.cfg.programId :: J.fc.programId :: noFee :: J.wsolProgram :: J.poolCfgs.map PoolCfg.programId).Nodup}

/-- With the chain as in `s` and `o`, a rebalancing command's requests about the LSTs `mints` gave it the cache `S`. -/
def GotCache (L : RatioLib) (list : List SanctumLst) (s : Sys (J.sys noFee dist)) (o : Outside (J.sys noFee dist)) (mints : List Pubkey) (S : SPool) : Prop :=
  ∃ (m₀ : AccMap) (lb pb : Blob) (extra : List Pubkey) (fetch : List Pubkey → AccMap),
    Shows J list o.chain (s.flat L) s.world m₀ ∧ m₀ J.cfg.lstStateList = some lb ∧ m₀ J.cfg.poolState = some pb ∧
    (∀ S₀ asked, SPool.fromInit J list o.chain.epoch lb pb = .ok S₀ → asked = S₀.toFetchLsts J (fun s => decide (s.mint ∈ mints)) ++ extra →
      Answers J list o.chain (s.flat L) s.world asked (fetch asked)) ∧
    rebalCache J list o.chain.epoch lb pb mints extra fetch = .ok S

/-- What the command needs besides. `w` is the state before StartRebalance. -/
structure Chances (J : JupCfg) (L : RatioLib) (S : SPool) {plan : RebalPlan} (t : RebalTx J.cfg plan) (w₀ w : World) (withdrawTo src dst : Pubkey)
    (amount quoted : Nat) : Prop where
  starts : t.Starts L w₀ w
  /-- the instructions before StartRebalance leave the pool's token accounts alone -/
  alone : ∀ k a, w₀.led.tok k = some a → a.owner = J.cfg.poolState → bal w.led k = a.amount
  backed : w.led.Backed
  active : Active w₀
  differ : src ≠ dst
  input : ∀ x ∈ w₀.ctl.lsts, x.mint = dst → x.isInputDisabled = 0
  /-- the pool's reserves of the source LST have the amount -/
  enough : ∀ x ∈ w₀.ctl.lsts, x.mint = src → ∀ m k, w₀.led.mints src = some m → J.cfg.ata J.cfg.poolState m.program src x.poolReservesBump = some k →
    amount ≤ bal w₀.led k
  withdraw : ∃ a, Wallet J.cfg w.led withdrawTo src a
  delivered : ∀ w', t.Reaches L w w' → Delivered J L t.env' S dst quoted w w'

/-! ### Proofs -/

theorem Mirrors.ext {env : Env J.cfg} {S : SPool} {w w' : World} (h : Mirrors J L env S w) (hi : Inv J.cfg w) (hc : w'.ctl = w.ctl) (ho : w.led.ExtOk J.cfg w'.led)
    (ha : ∀ k a, w.led.tok k = some a → a.owner = J.cfg.poolState → bal w'.led k = a.amount) : Mirrors J L env S w' := by
  refine ⟨hc ▸ h.pool, hc ▸ h.lsts, ?_, h.aligned, ?_, hc ▸ h.serves⟩
  · intro i s d n m k hs hd hn hm hk
    rw [hc] at hs
    obtain ⟨mt, res, acc, ra, fa, hl⟩ := hi.accs s (List.mem_of_getElem? hs)
    obtain ⟨m', hm', e1, -⟩ := ho.mint s.mint mt hl.mint
    rw [hm] at hm'; cases hm'
    rw [e1] at hk
    have := h.reserves i s d n mt k hs hd hn hl.mint hk
    rw [hl.res_key] at hk; cases hk
    rw [ha k ra hl.res hl.ra_owner, ← this, bal_some hl.res]
  · intro i s d m hs hd hm
    rw [hc] at hs
    obtain ⟨mt, res, acc, ra, fa, hl⟩ := hi.accs s (List.mem_of_getElem? hs)
    obtain ⟨m', hm', e1, -⟩ := ho.mint s.mint mt hl.mint
    rw [hm] at hm'; cases hm'
    rw [e1]
    exact h.tokenPrograms i s d mt hs hd hl.mint

/-- What C56 assumes holds. -/
theorem chances_circumstances (hg : GoodList J list) {s₀ : Sys (J.sys noFee dist)} (hf : s₀.Fresh) {h : List (SysTx (J.sys noFee dist))}
    {s : Sys (J.sys noFee dist)} (hs : runSystem L s₀ h = s) {o : Outside (J.sys noFee dist)} (ho : s.InOrder L list o) (hr : ListRight J list o.chain s.world)
    {mints : List Pubkey} {S : SPool} (hS : GotCache L list s o mints S) {plan : RebalPlan} {t : RebalTx J.cfg plan} (ht : t.env = s.env L o) {w : World}
    {withdrawTo src dst : Pubkey} {amount quoted : Nat} (hc : Chances J L S t s.world w withdrawTo src dst amount quoted) :
    Circumstances J L list S t s.world w withdrawTo src dst amount quoted := by
  obtain ⟨m₀, lb, pb, extra, fetch, h₀, hlb, hpb, ha, hS⟩ := hS
  obtain ⟨hm, hfl, hls, -, -⟩ := C102_cache hg hf hs ho hr h₀ hlb hpb ha hS
  have hre : Reachable J.cfg L s.world := hs ▸ C65_reachable hf h
  obtain ⟨w', hw', hctl, hext⟩ := runSteps_plain (L := L) (ixs := t.tops) t.plainPre 0 s.world
  have hst : runSteps L t.tops 0 s.world t.pre = .ok w := hc.starts
  rw [hst] at hw'; cases hw'
  have hmw : Mirrors J L t.env S w := by rw [ht]; exact hm.ext hre.inv hctl hext hc.alone
  refine ⟨hre, hc.starts, hmw, hfl, hc.backed, by have := hc.active; unfold Active at this ⊢; rwa [hctl], hc.differ, ?_, ?_, hc.withdraw, hc.delivered⟩
  · intro i x hx hxm
    rw [hctl] at hx
    exact hc.input x (List.mem_of_getElem? hx) hxm
  · intro x d n hfr hn
    obtain ⟨lsts, i, hl, hx, hd, hxm⟩ := SPool.findReady_ok hfr
    rw [hls] at hl; cases hl
    obtain ⟨mt, res, acc, ra, fa, hla⟩ := hre.inv.accs x (List.mem_of_getElem? hx)
    rw [← hm.reserves i x d n mt res hx hd hn hla.mint hla.res_key]
    subst hxm
    exact hc.enough x (List.mem_of_getElem? hx) rfl mt res hla.mint hla.res_key

/-! ### The commands -/

section
variable (hg : GoodList J list) {s₀ : Sys (J.sys noFee dist)} (hf : s₀.Fresh) {h : List (SysTx (J.sys noFee dist))}
  {s : Sys (J.sys noFee dist)} (hs : runSystem L s₀ h = s) {o : Outside (J.sys noFee dist)} (ho : s.InOrder L list o) (hr : ListRight J list o.chain s.world)
  {S : SPool} {plan : RebalPlan} {t : RebalTx J.cfg plan} (ht : t.env = s.env L o) {w : World} {auth withdrawTo : Pubkey} {payer : Option Nat}

include hg hf hs ho hr ht

/-- `rebal-sol`: the transaction goes through. -/
theorem C104_rebalSol {e : SanctumLst} {lamports minted : Nat} (hS : GotCache L list s o [J.wsolMint, e.mint] S)
    (hplan : rebalSol J L S auth e lamports minted payer withdrawTo = .ok plan)
    (hc : Chances J L S t s.world w withdrawTo J.wsolMint e.mint lamports (minted + plan.subsidy))
    (he : Listed list e) (hws : WsolListed J list) (hfits : S.SyncFits L J.wsolMint e.mint) : ∃ w', Tx.run L s.world t.tx = .ok w' :=
  C56_rebalSol hplan (chances_circumstances hg hf hs ho hr hS ht hc) he hws hfits

/-- `rebal-stake`. -/
theorem C104_rebalStake {a b : SanctumLst} {amt tokensOut : Nat} (hS : GotCache L list s o [a.mint, b.mint] S)
    (hplan : rebalStake J L S auth a b amt tokensOut payer withdrawTo = .ok plan)
    (hc : Chances J L S t s.world w withdrawTo a.mint b.mint amt (tokensOut + plan.subsidy))
    (ha : Listed list a) (hb : Listed list b) : ∃ w', Tx.run L s.world t.tx = .ok w' :=
  C56_rebalStake hplan (chances_circumstances hg hf hs ho hr hS ht hc) ha hb

/-- `rebal-withdraw-sol`. -/
theorem C104_rebalWithdrawSol {e : SanctumLst} {amt withdrawn : Nat} (hS : GotCache L list s o [e.mint, J.wsolMint] S)
    (hplan : rebalWithdrawSol J L S auth e amt withdrawn payer withdrawTo = .ok plan)
    (hc : Chances J L S t s.world w withdrawTo e.mint J.wsolMint amt (withdrawn + plan.subsidy))
    (he : Listed list e) (hws : WsolListed J list) (hfits : S.SyncFits L e.mint J.wsolMint) : ∃ w', Tx.run L s.world t.tx = .ok w' :=
  C56_rebalWithdrawSol hplan (chances_circumstances hg hf hs ho hr hS ht hc) he hws hfits

end

end

/-! ### Not vacuous -/

namespace Ex

/-- 2000 of token 22, worth 3000 lamports, into token 21 (wrapped SOL); the stake pools would give 2950. -/
def kplan : RebalPlan := (rebalStake rjup .ex kS 6 ⟨22, 8, .lido⟩ ⟨21, 8, .reservePool⟩ 2000 2950 (some 100) 42).toOption.getD noPlan

theorem kplan_ok : rebalStake rjup .ex kS 6 ⟨22, 8, .lido⟩ ⟨21, 8, .reservePool⟩ 2000 2950 (some 100) 42 = .ok kplan := by
  obtain ⟨p, hp⟩ := ok_of_isSome (x := rebalStake rjup .ex kS 6 ⟨22, 8, .lido⟩ ⟨21, 8, .reservePool⟩ 2000 2950 (some 100) 42) (by decide +kernel)
  rw [kplan, hp]; rfl

theorem kplan_subsidy : kplan.subsidy = 50 := by decide +kernel

def kenv : Env cfg := (jat 12).env .ex jout

/-- StartRebalance, a transfer, EndRebalance. -/
def ktx : RebalTx cfg kplan where
  pre := []
  env := kenv
  accs := kplan.start.accs
  mid := [.foreign ⟨77, [], []⟩ (by decide) [.ext (moveTokens 41 resA 3000) (moveTokens_ok _ _ _)]]
  env' := kenv
  accs' := kplan.finish.accs
  plainPre := by simp
  plainMid := by
    intro x hx
    simp only [List.mem_cons, List.not_mem_nil, or_false] at hx
    subst hx
    intro a ha
    simp only [List.mem_cons, List.not_mem_nil, or_false] at ha
    exact ⟨_, _, ha⟩
  seen := .refl _
  seen' := .refl _
  signers := by decide +kernel
  signers' := by decide +kernel

theorem kgot : GotCache (J := rjup) (noFee := 800) (dist := jdist) .ex jupList (jat 12) jout [22, 21] kS :=
  ⟨rfetch (jat 12).world [1, 2], kl, kp, [], rfetch (jat 12).world, kshows, by decide +kernel, by decide +kernel, kans, kS_eq⟩

theorem kafter : (RebalTx.between ktx (jat 12).world).toOption.map (fun w' => (bal w'.led resA, w'.ctl.pool.map (·.totalSolValue), (w'.ctl.lsts[0]?).map (·.solValue))) =
    some (36000, some 57006, some 33000) := by decide +kernel

theorem kids : (jat 12).world.ctl.lsts.map (fun s => (s.mint, s.poolReservesBump, s.isInputDisabled)) = [(21, 255, 0), (22, 255, 0)] := by decide +kernel
theorem kbal : bal (jat 12).world.led resA = 33000 ∧ bal (jat 12).world.led resB = 18004 := by decide +kernel
theorem kata : cfg.ata 1 8 21 255 = some resA ∧ cfg.ata 1 8 22 255 = some resB := by decide +kernel
theorem kdata : kS.data = [some ⟨.wsol, some 33000, 8⟩, some ⟨.lido (some ⟨0, 2, 3⟩), some 18004, 8⟩] := by decide +kernel
theorem kepoch : kS.epoch = 0 := by decide +kernel

attribute [local irreducible] jat kS kplan

theorem kentry {j : Nat} {s : LstState} (hs : (jat 12).world.ctl.lsts[j]? = some s) :
    (j = 0 ∧ s.mint = 21 ∨ j = 1 ∧ s.mint = 22) ∧ s.poolReservesBump = 255 ∧ s.isInputDisabled = 0 := by
  have h : ((jat 12).world.ctl.lsts.map (fun s => (s.mint, s.poolReservesBump, s.isInputDisabled)))[j]? =
    some (s.mint, s.poolReservesBump, s.isInputDisabled) := by simp [hs]
  rw [kids] at h
  match j, h with
  | 0, h => injection h with h; injection h with h1 h; injection h with h2 h3; exact ⟨.inl ⟨rfl, h1.symm⟩, h2.symm, h3.symm⟩
  | 1, h => injection h with h; injection h with h1 h; injection h with h2 h3; exact ⟨.inr ⟨rfl, h1.symm⟩, h2.symm, h3.symm⟩
  | j + 2, h => cases h

theorem kdelivered (w' : World) (h : ktx.Reaches .ex (jat 12).world w') :
    Delivered rjup .ex ktx.env' kS 21 (2950 + kplan.subsidy) (jat 12).world w' := by
  have hw' : RebalTx.between ktx (jat 12).world = .ok w' := by
    obtain ⟨w1, h1, h2⟩ := h
    simp only [RebalTx.between, bind_ok]
    exact ⟨w1, h1, h2⟩
  have hw := kafter
  rw [hw'] at hw
  simp only [Except.toOption, Option.map_some, Option.some.injEq, Prod.mk.injEq] at hw
  obtain ⟨hb, hp, hv⟩ := hw
  intro j s d m k p' hs hsm hd hmm hk hp'
  obtain ⟨hj, hbump, -⟩ := kentry hs
  obtain ⟨rfl, -⟩ : j = 0 ∧ True := by
    rcases hj with ⟨h, -⟩ | ⟨-, h⟩
    · exact ⟨h, trivial⟩
    · rw [hsm] at h; exact absurd h (by decide)
  rw [jmints.2.1] at hmm
  injection hmm with hmm
  rw [← hmm, hbump] at hk
  have hk : cfg.ata 1 8 21 255 = some k := hk
  rw [kata.1] at hk
  injection hk with hk
  subst hk
  rw [hb, kbal.1, kplan_subsidy]
  rw [kdata] at hd
  injection hd with hd
  injection hd with hd
  subst hd
  obtain ⟨hu, hserve⟩ := kmirrors.1.serves 0 s _ .wsol hs (by rw [kdata]; rfl) (by rw [kepoch]; rfl)
  refine ⟨by decide, .wsol, ⟨36000, 36000⟩, ⟨36000, 36000⟩, hu, hserve, by rw [kepoch]; exact ok_of_toOption (by decide +kernel), ok_of_toOption (by decide +kernel),
    Nat.le_refl _, ?_⟩
  intro s' hs'
  rw [hp'] at hp
  rw [hs'] at hv
  simp only [Option.map_some, Option.some.injEq] at hp hv
  rw [hp, hv]; decide

theorem kchances : Chances rjup .ex kS ktx (jat 12).world (jat 12).world 42 22 21 2000 (2950 + kplan.subsidy) where
  starts := rfl
  alone k a h _ := bal_some h
  backed := jat_backed 12
  active := jactive
  differ := by decide
  input x hx _ := by
    obtain ⟨j, hj⟩ := List.mem_iff_getElem?.1 hx
    exact (kentry hj).2.2
  enough x hx _ m k hm hk := by
    obtain ⟨j, hj⟩ := List.mem_iff_getElem?.1 hx
    rw [jmints.2.2] at hm
    injection hm with hm
    rw [← hm, (kentry hj).2.1] at hk
    have hk : cfg.ata 1 8 22 255 = some k := hk
    rw [kata.2] at hk
    injection hk with hk
    rw [← hk, kbal.2]; decide
  withdraw := ⟨_, jtoks.2.1, fun m hm => by rw [jmints.2.2] at hm; injection hm with hm; rw [← hm], rfl, by decide, by decide⟩
  delivered := kdelivered

example : ∃ w', Tx.run (cfg := rjup.cfg) .ex (jat 12).world (RebalTx.tx (cfg := rjup.cfg) ktx) = .ok w' :=
  C104_rebalStake (J := rjup) (L := .ex) (list := jupList) (noFee := 800) (dist := jdist) (s₀ := jsys0) (h := jhist.take 12) (s := jat 12)
    (o := jout) (t := ktx) jupList_good jsys0_fresh jrun jorder jlist_right rfl kgot kplan_ok kchances jupList_22 jupList_21

end Ex

end S

import Verif.Props.JupLive
import Verif.Proofs.SysLive
/-
What the transaction built from a quote does to the user's accounts, when it goes through. Used by C89.
-/
set_option autoImplicit false
namespace S

theorem toLE_mod (k n : Nat) : toLE k (n % 256 ^ k) = toLE k n := by
  induction k generalizing n with
  | zero => rfl
  | succ k ih =>
    have h1 : n % 256 ^ (k + 1) % 256 = n % 256 := Nat.mod_mod_of_dvd n (Dvd.intro_left (256 ^ k) rfl)
    have h2 : n % 256 ^ (k + 1) / 256 = n / 256 % 256 ^ k := by rw [Nat.pow_succ', Nat.mod_mul_right_div_self]
    simp only [toLE, h1, h2, ih]

variable {J : JupCfg} {L : RatioLib} {env : Env J.cfg} {cs : List (FlatCall J.fc)} {S : SPool} {w w' : World}

/-- A token account of a user is none of the accounts of a listed LST. -/
theorem Wallet.ne_lst {k mint : Pubkey} {a : TokenAcc} (h : Wallet J.cfg w.led k mint a) {s : LstState} {m : Mint} {res acc : Pubkey} {ra fa : TokenAcc}
    (la : LstAccounts J.cfg w.led s m res acc ra fa) : k ≠ res ∧ k ≠ acc := by
  constructor
  · intro e; have := la.res; rw [← e, h.tok] at this; cases this; exact h.notPool la.ra_owner
  · intro e; have := la.acc; rw [← e, h.tok] at this; cases this; exact h.notFees la.fa_owner

theorem keyAt {as bs : List Acc} (h : SeenAs as bs) {i : Nat} {x : Acc} {k : Pubkey} (hx : bs[i]? = some x) (hk : (as.map Acc.key)[i]? = some k) : x.key = k := by
  have := congrArg (fun l => l[i]?) h.keys
  simp only [List.getElem?_map, hx] at this
  rw [List.getElem?_map] at hk
  rw [hk] at this
  simpa using this

theorem remove_effect (hf : Fresh J L env cs S w) (hinv : Inv J.cfg w) (hq : env.Quiet) {q : QuoteParams} {Q : Quote} (hquote : S.quoteRemove L q = .ok Q)
    (ha : q.amount < U64) {src dst signer : Pubkey}
    {ix : TopIx} (hix : S.removeIx J ⟨q.amount, Q.outAmount, q.inputMint, q.outputMint, src, dst, signer⟩ = .ok ix)
    {ul lp : TokenAcc} (hne : q.inputMint ≠ q.outputMint) (hul : Wallet J.cfg w.led dst q.outputMint ul) (hlp : Wallet J.cfg w.led src q.inputMint lp)
    {accs : List Acc} (hseen : SeenAs ix.accs accs) {tx : TxInfo}
    (h : processInstruction J.cfg L env tx w ix.program accs ix.data = .ok w') :
    bal w'.led src + Q.inAmount = bal w.led src ∧ bal w'.led dst = bal w.led dst + Q.outAmount := by
  simp only [SPool.removeIx, SPool.liqRequest, removeLiquidityByMint, resolveLiq, bind_ok, Prod.exists, pure_ok, okOr_ok, Prod.mk.injEq, removeLiquidityIx, indexToU32_ok, extendOne_ok, if_true] at hix
  obtain ⟨r, ⟨s, d, hsd, pp, hpp, rfl⟩, pool, hpool, lsts, hl, k, i, c, pr, ⟨i', s', hfind, rk, hrk, ak, hak, rfl, rfl, rfl, rfl⟩, j, ⟨hj, rfl⟩, a1, n1, ⟨hn1, rfl, rfl⟩, a2, n2, ⟨hn2, rfl, rfl⟩, rfl⟩ := hix
  have hlw := hf.lsts lsts hl
  subst hlw
  obtain ⟨hsi, hsm, -⟩ := findLst_ok.1 hfind
  simp only at h hn1
  have hdec : decodeIx (Ix.removeLiquidity ⟨(d.solCalc.ixAccounts J).length, j, q.amount, Q.outAmount⟩).encode =
      .ok (.removeLiquidity ⟨(d.solCalc.ixAccounts J).length, j, q.amount, Q.outAmount % 256 ^ 8⟩) := by
    have e : (Ix.removeLiquidity ⟨(d.solCalc.ixAccounts J).length, j, q.amount, Q.outAmount⟩).encode =
        (Ix.removeLiquidity ⟨(d.solCalc.ixAccounts J).length, j, q.amount, Q.outAmount % 256 ^ 8⟩).encode := by
      simp only [Ix.encode, Ix.discm, Ix.argBytes, toLE_mod]
    rw [e]
    apply C38_roundtrip
    simp only [Ix.Wf]
    refine ⟨by omega, hj, ha, Nat.lt_of_lt_of_eq (Nat.mod_lt _ (by decide)) (by decide)⟩
  rw [overwrite_same (encode_length_remove _ _), processInstruction_of_decode L env tx w accs hdec] at h
  obtain ⟨p, s₂, sg, userLst, userLp, feeAcc, res, fee, hpar, hb⟩ :=
    C31_removeLiquidity hf hinv.ctl.mints hq hquote (by simp only [ListedAt, hsi, Option.map_some, hsm]) rfl h
  obtain ⟨m₁, rk', ak', ra, fa, la⟩ := hinv.accs s₂ (List.mem_of_getElem? hpar.entry)
  obtain ⟨m₂, e1, e2, e3⟩ := hpar.derived
  obtain rfl : m₂ = m₁ := Option.some.inj (e1.symm.trans la.mint)
  obtain rfl : res.key = rk' := Option.some.inj (e2.symm.trans la.res_key)
  obtain rfl : feeAcc.key = ak' := Option.some.inj (e3.symm.trans la.acc_key)
  have k2 : userLst.key = dst := keyAt hseen hpar.pos2 rfl
  have k3 : userLp.key = src := keyAt hseen hpar.pos3 rfl
  have n5 : src ≠ dst := by
    intro e; have := hul.tok; rw [← e, hlp.tok] at this; cases this; exact hne (hlp.mint.symm.trans hul.mint)
  obtain ⟨n1, n2⟩ := hul.ne_lst la
  obtain ⟨n3, n4⟩ := hlp.ne_lst la
  have b1 := hb src
  have b2 := hb dst
  rw [k2, k3] at b1 b2
  simp only [only, n5, n5.symm, n1, n2, n3, n4, if_true, if_false] at b1 b2
  omega

theorem add_effect (hf : Fresh J L env cs S w) (hinv : Inv J.cfg w) (hq : env.Quiet) {q : QuoteParams} {Q : Quote} (hquote : S.quoteAdd L q = .ok Q)
    (ha : q.amount < U64) {src dst signer : Pubkey}
    {ix : TopIx} (hix : S.addIx J ⟨q.amount, Q.outAmount, q.inputMint, q.outputMint, src, dst, signer⟩ = .ok ix)
    {ul lp : TokenAcc} (hne : q.inputMint ≠ q.outputMint) (hul : Wallet J.cfg w.led src q.inputMint ul) (hlp : Wallet J.cfg w.led dst q.outputMint lp)
    {accs : List Acc} (hseen : SeenAs ix.accs accs) {tx : TxInfo}
    (h : processInstruction J.cfg L env tx w ix.program accs ix.data = .ok w') :
    bal w'.led src + Q.inAmount = bal w.led src ∧ bal w'.led dst = bal w.led dst + Q.outAmount := by
  simp only [SPool.addIx, SPool.liqRequest, addLiquidityByMint, resolveLiq, bind_ok, Prod.exists, pure_ok, okOr_ok, Prod.mk.injEq, addLiquidityIx, indexToU32_ok, extendOne_ok, if_false, Bool.false_eq_true] at hix
  obtain ⟨r, ⟨s, d, hsd, pp, hpp, rfl⟩, pool, hpool, lsts, hl, k, i, c, pr, ⟨i', s', hfind, rk, hrk, ak, hak, rfl, rfl, rfl, rfl⟩, j, ⟨hj, rfl⟩, a1, n1, ⟨hn1, rfl, rfl⟩, a2, n2, ⟨hn2, rfl, rfl⟩, rfl⟩ := hix
  have hlw := hf.lsts lsts hl
  subst hlw
  obtain ⟨hsi, hsm, -⟩ := findLst_ok.1 hfind
  simp only at h hn1
  have hdec : decodeIx (Ix.addLiquidity ⟨(d.solCalc.ixAccounts J).length, j, q.amount, Q.outAmount⟩).encode =
      .ok (.addLiquidity ⟨(d.solCalc.ixAccounts J).length, j, q.amount, Q.outAmount % 256 ^ 8⟩) := by
    have e : (Ix.addLiquidity ⟨(d.solCalc.ixAccounts J).length, j, q.amount, Q.outAmount⟩).encode =
        (Ix.addLiquidity ⟨(d.solCalc.ixAccounts J).length, j, q.amount, Q.outAmount % 256 ^ 8⟩).encode := by
      simp only [Ix.encode, Ix.discm, Ix.argBytes, toLE_mod]
    rw [e]
    apply C38_roundtrip
    simp only [Ix.Wf]
    refine ⟨by omega, hj, ha, Nat.lt_of_lt_of_eq (Nat.mod_lt _ (by decide)) (by decide)⟩
  rw [overwrite_same (encode_length_add _ _), processInstruction_of_decode L env tx w accs hdec] at h
  obtain ⟨p, s₂, sg, userLst, userLp, feeAcc, res, toRes, toFee, hpar, hsum, hb⟩ :=
    C31_addLiquidity hf hinv.ctl.mints hq hquote (by simp only [ListedAt, hsi, Option.map_some, hsm]) rfl h
  obtain ⟨m₁, rk', ak', ra, fa, la⟩ := hinv.accs s₂ (List.mem_of_getElem? hpar.entry)
  obtain ⟨m₂, e1, e2, e3⟩ := hpar.derived
  obtain rfl : m₂ = m₁ := Option.some.inj (e1.symm.trans la.mint)
  obtain rfl : res.key = rk' := Option.some.inj (e2.symm.trans la.res_key)
  obtain rfl : feeAcc.key = ak' := Option.some.inj (e3.symm.trans la.acc_key)
  have k2 : userLst.key = src := keyAt hseen hpar.pos2 rfl
  have k3 : userLp.key = dst := keyAt hseen hpar.pos3 rfl
  have n5 : src ≠ dst := by
    intro e; have := hul.tok; rw [e, hlp.tok] at this; cases this; exact hne (hul.mint.symm.trans hlp.mint)
  obtain ⟨n1, n2⟩ := hul.ne_lst la
  obtain ⟨n3, n4⟩ := hlp.ne_lst la
  have b1 := hb src
  have b2 := hb dst
  rw [k2, k3] at b1 b2
  simp only [only, n5, n5.symm, n1, n2, n3, n4, if_true, if_false] at b1 b2
  omega

/-- The user's side of a swap's movements. -/
theorem SwapMoves.user {accs : List Acc} {i j inA outA fee : Nat} {p : PoolState} {s d : LstState} {signer srcAcc dstAcc feeAcc srcRes dstRes : Acc}
    (h : SwapMoves J.cfg w w' accs i j inA outA fee p s d signer srcAcc dstAcc feeAcc srcRes dstRes) (hinv : Inv J.cfg w)
    {mi mo : Pubkey} {us ud : TokenAcc} (hne : mi ≠ mo) (hus : Wallet J.cfg w.led srcAcc.key mi us) (hud : Wallet J.cfg w.led dstAcc.key mo ud) :
    bal w'.led srcAcc.key + inA = bal w.led srcAcc.key ∧ bal w'.led dstAcc.key = bal w.led dstAcc.key + outA := by
  obtain ⟨ms, rk, ak, ra, fa, la⟩ := hinv.accs s (List.mem_of_getElem? h.srcEntry)
  obtain ⟨md, rk', ak', ra', fa', lb⟩ := hinv.accs d (List.mem_of_getElem? h.dstEntry)
  obtain ⟨ms₂, md₂, e1, e2, e3, e4, e5⟩ := h.reserves
  obtain rfl : ms₂ = ms := Option.some.inj (e1.symm.trans la.mint)
  obtain rfl : md₂ = md := Option.some.inj (e2.symm.trans lb.mint)
  obtain rfl : srcRes.key = rk := Option.some.inj (e3.symm.trans la.res_key)
  obtain rfl : dstRes.key = rk' := Option.some.inj (e4.symm.trans lb.res_key)
  obtain rfl : feeAcc.key = ak' := Option.some.inj (e5.symm.trans lb.acc_key)
  have n5 : srcAcc.key ≠ dstAcc.key := by
    intro e; have := hud.tok; rw [← e, hus.tok] at this; cases this; exact hne (hus.mint.symm.trans hud.mint)
  obtain ⟨n1, -⟩ := hus.ne_lst la
  obtain ⟨n2, n2'⟩ := hus.ne_lst lb
  obtain ⟨n3, -⟩ := hud.ne_lst la
  obtain ⟨n4, n4'⟩ := hud.ne_lst lb
  have b1 := h.moves srcAcc.key
  have b2 := h.moves dstAcc.key
  simp only [only, n5, n5.symm, n1, n2, n3, n4, n2', n4', if_true, if_false] at b1 b2
  omega

theorem swapIn_effect (hf : Fresh J L env cs S w) (hinv : Inv J.cfg w) (hq : env.Quiet) {q : QuoteParams} {Q : Quote} (hquote : S.quoteExactIn L q = .ok Q)
    (ha : q.amount < U64) {src dst signer : Pubkey}
    {ix : TopIx} (hix : S.swapIx' J ⟨q.amount, Q.outAmount, q.inputMint, q.outputMint, src, dst, signer⟩ false = .ok ix)
    {us ud : TokenAcc} (hne : q.inputMint ≠ q.outputMint) (hus : Wallet J.cfg w.led src q.inputMint us) (hud : Wallet J.cfg w.led dst q.outputMint ud)
    {accs : List Acc} (hseen : SeenAs ix.accs accs) {tx : TxInfo}
    (h : processInstruction J.cfg L env tx w ix.program accs ix.data = .ok w') :
    bal w'.led src + Q.inAmount = bal w.led src ∧ bal w'.led dst = bal w.led dst + Q.outAmount := by
  simp only [SPool.swapIx', SPool.swapRequest, swapExactInByMint, resolveSwap, swapExactInIx, bind_ok, Prod.exists, pure_ok, okOr_ok, Prod.mk.injEq, indexToU32_ok,
    extendSrcDst_ok, extendSwap_ok, if_false, Bool.false_eq_true] at hix
  obtain ⟨pool, hpool, r, ⟨s, d, hsd, s', d', hsd', pp, hpp, pm, hpm, rfl⟩, lsts, hl, k, f, ⟨i, x, hfi, sr, hsr, j, y, hfj, dr, hdr, fee, hfee, rfl, rfl⟩,
    i', ⟨hiu, hie⟩, j', ⟨hju, hje⟩, a1, n1, n2, ⟨hn1, hn2, rfl, rfl, rfl⟩, a2, n3, ⟨hn3, hn4, rfl, rfl⟩, rfl⟩ := hix
  have hlw := hf.lsts lsts hl
  subst hlw
  simp only at hie hje hiu hju
  obtain rfl : i = i' := hie.symm
  obtain rfl : j = j' := hje.symm
  obtain ⟨hii, him, -⟩ := findLst_ok.1 hfi
  obtain ⟨hjj, hjm, -⟩ := findLst_ok.1 hfj
  simp only at h hn1 hn2
  generalize hns : (d.solCalc.ixAccounts J).length = ns at h hn1
  generalize hnd : (d'.solCalc.ixAccounts J).length = nd at h hn2
  have hdec : decodeIx (Ix.swapExactIn ⟨ns, nd, i, j, Q.outAmount, q.amount⟩).encode =
      .ok (.swapExactIn ⟨ns, nd, i, j, Q.outAmount % 256 ^ 8, q.amount⟩) := by
    have e : (Ix.swapExactIn ⟨ns, nd, i, j, Q.outAmount, q.amount⟩).encode = (Ix.swapExactIn ⟨ns, nd, i, j, Q.outAmount % 256 ^ 8, q.amount⟩).encode := by
      simp only [Ix.encode, Ix.discm, Ix.argBytes, toLE_mod]
    rw [e]
    apply C38_roundtrip
    simp only [Ix.Wf]
    exact ⟨by omega, by omega, hiu, hju, Nat.lt_of_lt_of_eq (Nat.mod_lt _ (by decide)) (by decide), ha⟩
  rw [overwrite_same (encode_length_swapIn _ _), processInstruction_of_decode L env tx w accs hdec] at h
  obtain ⟨fe, p, x', y', sg, srcAcc, dstAcc, feeAcc, srcRes, dstRes, hm⟩ := C31_swapExactIn hf hinv.ctl.mints hq hquote
    (by simp only [ListedAt, hii, Option.map_some, him]) (by simp only [ListedAt, hjj, Option.map_some, hjm]) rfl h
  obtain rfl : srcAcc.key = src := keyAt hseen hm.pos3 rfl
  obtain rfl : dstAcc.key = dst := keyAt hseen hm.pos4 rfl
  exact hm.user hinv hne hus hud

theorem swapOut_effect (hf : Fresh J L env cs S w) (hinv : Inv J.cfg w) (hq : env.Quiet) {q : QuoteParams} {Q : Quote} (hquote : S.quoteExactOut L q = .ok Q)
    (ha : q.amount < U64) {src dst signer : Pubkey}
    {ix : TopIx} (hix : S.swapIx' J ⟨Q.inAmount, q.amount, q.inputMint, q.outputMint, src, dst, signer⟩ true = .ok ix)
    {us ud : TokenAcc} (hne : q.inputMint ≠ q.outputMint) (hus : Wallet J.cfg w.led src q.inputMint us) (hud : Wallet J.cfg w.led dst q.outputMint ud)
    {accs : List Acc} (hseen : SeenAs ix.accs accs) {tx : TxInfo}
    (h : processInstruction J.cfg L env tx w ix.program accs ix.data = .ok w') :
    bal w'.led src + Q.inAmount = bal w.led src ∧ bal w'.led dst = bal w.led dst + Q.outAmount := by
  simp only [SPool.swapIx', SPool.swapRequest, swapExactOutByMint, resolveSwap, swapExactOutIx, bind_ok, Prod.exists, pure_ok, okOr_ok, Prod.mk.injEq, indexToU32_ok,
    extendSrcDst_ok, extendSwap_ok, if_true] at hix
  obtain ⟨pool, hpool, r, ⟨s, d, hsd, s', d', hsd', pp, hpp, pm, hpm, rfl⟩, lsts, hl, k, f, ⟨i, x, hfi, sr, hsr, j, y, hfj, dr, hdr, fee, hfee, rfl, rfl⟩,
    i', ⟨hiu, hie⟩, j', ⟨hju, hje⟩, a1, n1, n2, ⟨hn1, hn2, rfl, rfl, rfl⟩, a2, n3, ⟨hn3, hn4, rfl, rfl⟩, rfl⟩ := hix
  have hlw := hf.lsts lsts hl
  subst hlw
  simp only at hie hje hiu hju
  obtain rfl : i = i' := hie.symm
  obtain rfl : j = j' := hje.symm
  obtain ⟨hii, him, -⟩ := findLst_ok.1 hfi
  obtain ⟨hjj, hjm, -⟩ := findLst_ok.1 hfj
  simp only at h hn1 hn2
  generalize hns : (d.solCalc.ixAccounts J).length = ns at h hn1
  generalize hnd : (d'.solCalc.ixAccounts J).length = nd at h hn2
  have hdec : decodeIx (Ix.swapExactOut ⟨ns, nd, i, j, Q.inAmount, q.amount⟩).encode =
      .ok (.swapExactOut ⟨ns, nd, i, j, Q.inAmount % 256 ^ 8, q.amount⟩) := by
    have e : (Ix.swapExactOut ⟨ns, nd, i, j, Q.inAmount, q.amount⟩).encode = (Ix.swapExactOut ⟨ns, nd, i, j, Q.inAmount % 256 ^ 8, q.amount⟩).encode := by
      simp only [Ix.encode, Ix.discm, Ix.argBytes, toLE_mod]
    rw [e]
    apply C38_roundtrip
    simp only [Ix.Wf]
    exact ⟨by omega, by omega, hiu, hju, Nat.lt_of_lt_of_eq (Nat.mod_lt _ (by decide)) (by decide), ha⟩
  rw [overwrite_same (encode_length_swapOut _ _), processInstruction_of_decode L env tx w accs hdec] at h
  obtain ⟨fe, p, x', y', sg, srcAcc, dstAcc, feeAcc, srcRes, dstRes, hm⟩ := C31_swapExactOut hf hinv.ctl.mints hq hquote
    (by simp only [ListedAt, hii, Option.map_some, him]) (by simp only [ListedAt, hjj, Option.map_some, hjm]) rfl h
  obtain rfl : srcAcc.key = src := keyAt hseen hm.pos3 rfl
  obtain rfl : dstAcc.key = dst := keyAt hseen hm.pos4 rfl
  exact hm.user hinv hne hus hud

end S

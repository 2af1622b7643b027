import Verif.Props.Serde
/-
C29 and C30 for the controller's real accounts: every reachable state fits its accounts' byte formats, and AddLst, RemoveLst and the disable authority
instructions are the list operations on the accounts' bytes.
-/
set_option autoImplicit false
namespace S

/-- Keys are 32 bytes. -/
abbrev Key32 (k : Pubkey) : Prop := k < 2 ^ 256

/-- Everything stored in the controller's accounts is within the range of its field. -/
structure Ctl.InRange (c : Ctl) : Prop where
  pool : ∀ p, c.pool = some p → p.InRange
  lsts : ∀ s ∈ c.lsts, s.InRange
  auths : ∀ k ∈ c.auths, Key32 k
  rebal : ∀ r, c.rebal = some r → r.InRange

/-- The part of `Ctl.InRange` that concerns keys and the rebalance record. -/
structure KeysOk (c : Ctl) : Prop where
  pool : ∀ p, c.pool = some p → Key32 p.admin ∧ Key32 p.rebalanceAuthority ∧ Key32 p.protocolFeeBeneficiary ∧ Key32 p.pricingProgram ∧ Key32 p.lpTokenMint
  lsts : ∀ s ∈ c.lsts, Key32 s.mint ∧ Key32 s.solValueCalculator
  auths : ∀ k ∈ c.auths, Key32 k
  rebal : ∀ r, c.rebal = some r → r.InRange

theorem le_sumSol {ls : List LstState} {s : LstState} (h : s ∈ ls) : s.solValue ≤ sumSol ls := by
  induction ls with
  | nil => cases h
  | cons x ls ih =>
    rcases List.mem_cons.1 h with rfl | h
    · simp [sumSol]
    · have := ih h; simp [sumSol] at this ⊢; omega

theorem KeysOk.inRange {c : Ctl} (h : KeysOk c) (hi : CtlInv c) : c.InRange where
  pool p hp := by
    have h1 := hi.total_u64 p hp
    have h2 := hi.fees p hp
    have h3 := hi.version p hp
    have h4 := hi.flags p hp
    obtain ⟨k1, k2, k3, k4, k5⟩ := h.pool p hp
    exact ⟨h1, by omega, by omega, by omega, by omega, by omega, k1, k2, k3, k4, k5⟩
  lsts s hs := by
    have h1 := hi.lst s hs
    obtain ⟨k1, k2⟩ := h.lsts s hs
    refine ⟨by omega, h1.2.1, h1.2.2, ?_, k1, k2⟩
    cases hp : c.pool with
    | none => rw [(hi.noPool hp).1] at hs; cases hs
    | some p =>
      have := le_sumSol hs
      rw [← hi.total p hp] at this
      exact Nat.lt_of_le_of_lt this (hi.total_u64 p hp)
  auths := h.auths
  rebal := h.rebal

theorem KeysOk.onlyValues {c c' : Ctl} (h : KeysOk c) (hv : OnlyValues c c') : KeysOk c' where
  pool p hp := by
    cases hc : c.pool with
    | none => rw [hv.poolNone hc] at hp; cases hp
    | some q =>
      obtain ⟨t, ht⟩ := hv.pool q hc
      rw [ht] at hp; injection hp with hp; subst hp
      exact h.pool q hc
  lsts := config_forall (P := fun s => Key32 s.mint ∧ Key32 s.solValueCalculator) (fun _ => Iff.rfl) hv.lsts h.lsts
  auths := by rw [hv.auths]; exact h.auths
  rebal := by rw [hv.rebal]; exact h.rebal

theorem KeysOk.setPool {c : Ctl} (h : KeysOk c) {q : PoolState} (hq : Key32 q.admin ∧ Key32 q.rebalanceAuthority ∧ Key32 q.protocolFeeBeneficiary ∧
    Key32 q.pricingProgram ∧ Key32 q.lpTokenMint) : KeysOk { c with pool := some q } where
  pool p hp := by injection hp with hp; subst hp; exact hq
  lsts := h.lsts
  auths := h.auths
  rebal := h.rebal

theorem KeysOk.setLsts {c : Ctl} (h : KeysOk c) {ls : List LstState} (hl : ∀ s ∈ ls, Key32 s.mint ∧ Key32 s.solValueCalculator) :
    KeysOk { c with lsts := ls } := ⟨h.pool, hl, h.auths, h.rebal⟩

theorem KeysOk.setLst {c : Ctl} (h : KeysOk c) {i : Nat} {s : LstState} (hs : Key32 s.mint ∧ Key32 s.solValueCalculator) :
    KeysOk { c with lsts := c.lsts.set i s } := h.setLsts fun x hx => by
  rcases List.mem_or_eq_of_mem_set hx with hx | rfl
  · exact h.lsts x hx
  · exact hs

theorem KeysOk.setAuths {c : Ctl} (h : KeysOk c) {l : List Pubkey} (hl : ∀ k ∈ l, Key32 k) : KeysOk { c with auths := l } := ⟨h.pool, h.lsts, hl, h.rebal⟩

theorem KeysOk.setRebal {c : Ctl} (h : KeysOk c) {r : Option RebalanceRecord} (hr : ∀ x, r = some x → x.InRange) : KeysOk { c with rebal := r } :=
  ⟨h.pool, h.lsts, h.auths, hr⟩

/-- The addresses compiled into the program are keys. -/
def Cfg.Key32 (cfg : Cfg) : Prop := S.Key32 cfg.initialAuthority ∧ S.Key32 cfg.flatFeeProgram

theorem KeysOk.step {cfg : Cfg} {L : RatioLib} {env : Env cfg} {tx : TxInfo} {w w' : World} {accs : List Acc} {ix : Ix} (hcfg : cfg.Key32)
    (ha : ∀ a ∈ accs, Key32 a.key) (hw : ix.Wf) (hi : CtlInv w.ctl) (hk : KeysOk w.ctl) (h : processIx cfg L env tx w accs ix = .ok w') :
    KeysOk w'.ctl := by
  have hc := processIx_ctl h
  cases ix with
  | syncSolValue i => obtain ⟨p, _, hs⟩ := hc; exact hk.onlyValues hs.onlyValues
  | swapExactIn args => obtain ⟨p, s, _, _, _, hs⟩ := hc; exact hk.onlyValues hs.onlyValues
  | swapExactOut args => obtain ⟨p, s, _, _, _, hs⟩ := hc; exact hk.onlyValues hs.onlyValues
  | addLiquidity args => obtain ⟨p, s, _, _, _, hs⟩ := hc; exact hk.onlyValues hs.onlyValues
  | removeLiquidity args => obtain ⟨p, _, hs⟩ := hc; exact hk.onlyValues hs.onlyValues
  | disableLstInput i =>
    obtain ⟨p, s, _, _, hs, e⟩ := hc
    rw [e]; exact hk.setLst (s := { s with isInputDisabled := 1 }) (hk.lsts s (List.mem_of_getElem? hs))
  | enableLstInput i =>
    obtain ⟨p, s, _, _, hs, e⟩ := hc
    rw [e]; exact hk.setLst (s := { s with isInputDisabled := 0 }) (hk.lsts s (List.mem_of_getElem? hs))
  | addLst =>
    obtain ⟨r⟩ := processAddLst_inv h
    have e := congrArg World.ctl r.eq
    rw [e]
    refine hk.setLsts fun s hs => ?_
    rcases List.mem_append.1 hs with hs | hs
    · exact hk.lsts s hs
    · rw [List.mem_singleton.1 hs]
      have hl := r.load
      unfold AddLstAccs.load at hl; split at hl
      · injection hl with hl; rw [← hl]; exact ⟨ha _ (by simp), ha _ (by simp)⟩
      · cases hl
  | removeLst i =>
    obtain ⟨p, s, _, _, _, _, e⟩ := hc
    rw [e]; exact hk.setLsts fun s hs => hk.lsts s (List.mem_of_mem_eraseIdx hs)
  | setSolValueCalculator i =>
    obtain ⟨r⟩ := processSetSolValueCalculator_inv h
    have hs := r.run.syncs.onlyValues
    refine KeysOk.onlyValues (c := { w.ctl with lsts := w.ctl.lsts.set i { r.s with solValueCalculator := r.c.program } }) ?_ hs
    refine hk.setLst ⟨(hk.lsts _ (List.mem_of_getElem? r.sel.get)).1, ?_⟩
    have hl := r.load
    have hp := r.cpi
    unfold SetCalcAccs.load at hl; split at hl
    · injection hl with hl; injection hl with _ hl
      unfold CalcCpi.ofSuffix at hp; split at hp
      · cases hp
      · injection hp with hp
        rw [← hp]
        rename_i heq
        exact ha _ (by rw [hl, heq]; simp)
    · cases hl
  | setAdmin =>
    obtain ⟨a, p, hl, hp, _, _, rfl⟩ := processSetAdmin_inv h
    obtain ⟨k1, k2, k3, k4, k5⟩ := hk.pool p hp
    refine hk.setPool ⟨?_, k2, k3, k4, k5⟩
    unfold SetAdminAccs.load at hl; split at hl
    · injection hl with hl; rw [← hl]; exact ha _ (by simp)
    · cases hl
  | setProtocolFee args =>
    obtain ⟨p, hp, _, _, _, e⟩ := hc
    rw [e]; exact hk.setPool (hk.pool p hp.1)
  | setProtocolFeeBeneficiary =>
    obtain ⟨a, p, hl, hp, _, _, _, _, rfl⟩ := processSetBeneficiary_inv h
    obtain ⟨k1, k2, k3, k4, k5⟩ := hk.pool p hp
    refine hk.setPool ⟨k1, k2, ?_, k4, k5⟩
    unfold SetBeneficiaryAccs.load at hl; split at hl
    · injection hl with hl; rw [← hl]; exact ha _ (by simp)
    · cases hl
  | setPricingProgram =>
    obtain ⟨a, p, hl, hp, _, _, _, _, _, rfl⟩ := processSetPricing_inv h
    obtain ⟨k1, k2, k3, k4, k5⟩ := hk.pool p hp
    refine hk.setPool ⟨k1, k2, k3, ?_, k5⟩
    unfold SetPricingAccs.load at hl; split at hl
    · injection hl with hl; rw [← hl]; exact ha _ (by simp)
    · cases hl
  | withdrawProtocolFees n => obtain ⟨p, _, _, e⟩ := hc; rw [e]; exact hk
  | addDisablePoolAuthority =>
    obtain ⟨a, p, hl, hp, _, _, _, rfl⟩ := processAddAuth_inv h
    refine hk.setAuths fun k hkm => ?_
    rcases List.mem_append.1 hkm with hkm | hkm
    · exact hk.auths k hkm
    · rw [List.mem_singleton.1 hkm]
      unfold AddAuthAccs.load at hl; split at hl
      · injection hl with hl; rw [← hl]; exact ha _ (by simp)
      · cases hl
  | removeDisablePoolAuthority i =>
    obtain ⟨p, k, _, _, _, e⟩ := hc
    rw [e]; exact hk.setAuths fun k hkm => hk.auths k (List.mem_of_mem_eraseIdx hkm)
  | disablePool => obtain ⟨p, hp, _, e⟩ := hc; rw [e]; exact hk.setPool (hk.pool p hp.1)
  | enablePool => obtain ⟨p, hp, _, _, e⟩ := hc; rw [e]; exact hk.setPool (hk.pool p hp)
  | startRebalance args =>
    obtain ⟨p, s, c2, c3, p2, p3, dm, _, _, _, _, _, _, s2, hp2, s3, hp3, _, e⟩ := hc
    have h3 := hk.onlyValues (s2.trans s3).onlyValues
    rw [e]
    refine KeysOk.setRebal (KeysOk.setPool (q := { p3 with isRebalancing := 1 }) h3 (h3.pool p3 hp3)) (r := some ⟨p2.totalSolValue, args.dstLstIndex⟩) ?_
    intro x hx; injection hx with hx; subst hx
    exact ⟨(hi.syncs s2).total_u64 p2 hp2, hw.2.2.1⟩
  | endRebalance =>
    obtain ⟨p, rr, c1, p1, hp, _, _, _, hs, _, _, e⟩ := hc
    rw [e]
    have h1 := KeysOk.setPool (q := { p with isRebalancing := 0 }) hk (hk.pool p hp)
    exact (h1.onlyValues hs.onlyValues).setRebal (by simp)
  | setRebalanceAuthority =>
    obtain ⟨a, p, hl, hp, _, _, _, _, rfl⟩ := processSetRebAuth_inv h
    obtain ⟨k1, k2, k3, k4, k5⟩ := hk.pool p hp
    refine hk.setPool ⟨k1, ?_, k3, k4, k5⟩
    unfold SetRebAuthAccs.load at hl; split at hl
    · injection hl with hl; rw [← hl]; exact ha _ (by simp)
    · cases hl
  | «initialize» =>
    obtain ⟨r⟩ := processInitialize_inv h
    have e := congrArg World.ctl r.eq
    rw [e]
    refine hk.setPool ⟨hcfg.1, hcfg.1, hcfg.1, hcfg.2, ?_⟩
    have hl := r.load
    unfold InitializeAccs.load at hl; split at hl
    · injection hl with hl; rw [← hl]; exact ha _ (by simp)
    · cases hl

/-- All account keys of the calls of a history are keys. -/
def HistoryKeys {cfg : Cfg} (L : RatioLib) (w₀ : World) (h : List (Tx cfg)) : Prop :=
  ∀ e ∈ historyEvents L w₀ h, ∀ c, e.act = .call c → ∀ a ∈ c.accs, Key32 a.key

theorem Chain.keys {cfg : Cfg} {L : RatioLib} (hcfg : cfg.Key32) {w w' : World} {es : List (Event cfg)} (hc : Chain w es w')
    (hr : ∀ e ∈ es, e.act.run L e.tx e.pre = .ok e.post) (hk : ∀ e ∈ es, ∀ c, e.act = .call c → ∀ a ∈ c.accs, Key32 a.key)
    (hi : ∀ e ∈ es, CtlInv e.pre.ctl) (h : KeysOk w.ctl) : KeysOk w'.ctl := by
  induction hc with
  | nil => exact h
  | @cons w' e es _ ih =>
    rw [List.forall_mem_cons] at hr hk hi
    refine ih hr.2 hk.2 hi.2 ?_
    rcases Action.run_ok hr.1 with ⟨hc, _⟩ | ⟨c, ix, hact, _, hd, hp⟩
    · rw [hc]; exact h
    · exact KeysOk.step hcfg (hk.1 c hact) (C38_decoded hd).1 hi.1 h hp

/-- C29, over histories: whatever happened, everything stored in the controller's accounts is within the range of its field. -/
theorem C29_in_range {cfg : Cfg} {L : RatioLib} {w₀ : World} (hf : World.Fresh cfg w₀) {h : List (Tx cfg)} (hcfg : cfg.Key32)
    (hk : HistoryKeys L w₀ h) : (runHistory L w₀ h).ctl.InRange := by
  obtain ⟨c, r⟩ := historyEvents_chain L w₀ h
  have hi := history_inv (L := L) hf h
  refine (c.keys hcfg r hk (fun e he => (hi.1 e he).1.ctl) ?_).inRange hi.2.ctl
  rw [hf.ctl]
  exact ⟨by simp [Ctl.init], by simp [Ctl.init], by simp [Ctl.init], by simp [Ctl.init]⟩

/-- The data of the controller's four accounts. An account that does not exist has no data. -/
structure CtlBytes where
  pool : List UInt8
  lsts : List UInt8
  auths : List UInt8
  rebal : List UInt8

/-- The accounts' data hold the state `c`, when read by the program at `addr`. -/
structure CtlBytes.Holds (addr : Nat) (b : CtlBytes) (c : Ctl) : Prop where
  pool : (c.pool = none ∧ b.pool = []) ∨ ∃ p pad, c.pool = some p ∧ tryPoolState addr b.pool = .ok (p, pad)
  lsts : ∃ l, tryList lstElem addr b.lsts = some l ∧ l.map Prod.fst = c.lsts
  auths : tryList pubkeyElem addr b.auths = some c.auths
  rebal : (c.rebal = none ∧ b.rebal = []) ∨ ∃ r pad, c.rebal = some r ∧ tryRebalanceRecord addr b.rebal = .ok (r, pad)

/-- C29: every state reached can be held by accounts, and accounts hold one state only. -/
theorem C29_stored {cfg : Cfg} {L : RatioLib} {w₀ : World} (hf : World.Fresh cfg w₀) {h : List (Tx cfg)} (hcfg : cfg.Key32) (hk : HistoryKeys L w₀ h)
    {addr : Nat} (ha : 8 ∣ addr) : (∃ b : CtlBytes, b.Holds addr (runHistory L w₀ h).ctl) ∧
    ∀ (b : CtlBytes) c c', b.Holds addr c → b.Holds addr c' → c = c' := by
  constructor
  · have hr := C29_in_range hf hcfg hk
    generalize (runHistory L w₀ h).ctl = c at hr
    refine ⟨⟨c.pool.elim [] (·.toBytes 0), listBytes lstElem (c.lsts.map fun s => (s, 0)), listBytes pubkeyElem c.auths,
      c.rebal.elim [] (·.toBytes 0)⟩, ?_, ?_, ?_, ?_⟩
    · cases hp : c.pool with
      | none => exact .inl ⟨rfl, rfl⟩
      | some p => exact .inr ⟨p, 0, rfl, ((C29_pool_state addr _).1 p 0).2 ⟨ha, hr.pool p hp, by decide, rfl⟩⟩
    · refine ⟨c.lsts.map fun s => (s, 0), ((C30_read lstElem_lawful addr _).1 _).2 ⟨ha, ?_, rfl⟩, by simp [Function.comp_def]⟩
      intro x hx
      obtain ⟨s, hs, rfl⟩ := List.mem_map.1 hx
      exact ⟨hr.lsts s hs, Nat.two_pow_pos 40⟩
    · exact ((C30_read pubkeyElem_lawful addr _).1 _).2 ⟨Nat.one_dvd _, hr.auths, rfl⟩
    · cases hp : c.rebal with
      | none => exact .inl ⟨rfl, rfl⟩
      | some r => exact .inr ⟨r, 0, rfl, ((C29_rebalance_record addr _).1 r 0).2 ⟨ha, hr.rebal r hp, by decide, rfl⟩⟩
  · intro b c c' h h'
    obtain ⟨p, ls, au, re⟩ := c
    obtain ⟨p', ls', au', re'⟩ := c'
    have e1 : p = p' := by
      rcases h.pool with ⟨a1, a2⟩ | ⟨q, pad, a1, a2⟩ <;> rcases h'.pool with ⟨b1, b2⟩ | ⟨q', pad', b1, b2⟩ <;> simp only at a1 b1
      · rw [a1, b1]
      · rw [(C29_pool_state addr _).2.2.2 (by rw [a2]; decide)] at b2; cases b2
      · rw [(C29_pool_state addr _).2.2.2 (by rw [b2]; decide)] at a2; cases a2
      · rw [a2] at b2; injection b2 with b2; injection b2 with b2; rw [a1, b1, b2]
    have e2 : ls = ls' := by
      obtain ⟨l, a1, a2⟩ := h.lsts
      obtain ⟨l', b1, b2⟩ := h'.lsts
      rw [a1] at b1; injection b1 with b1; subst b1
      exact a2.symm.trans b2
    have e3 : au = au' := by
      have a := h.auths
      rw [h'.auths] at a; injection a with a; exact a.symm
    have e4 : re = re' := by
      rcases h.rebal with ⟨a1, a2⟩ | ⟨q, pad, a1, a2⟩ <;> rcases h'.rebal with ⟨b1, b2⟩ | ⟨q', pad', b1, b2⟩ <;> simp only at a1 b1
      · rw [a1, b1]
      · rw [(C29_rebalance_record addr _).2.2.2 (by rw [a2]; decide)] at b2; cases b2
      · rw [(C29_rebalance_record addr _).2.2.2 (by rw [b2]; decide)] at a2; cases a2
      · rw [a2] at b2; injection b2 with b2; injection b2 with b2; rw [a1, b1, b2]
    rw [e1, e2, e3, e4]

/-- C30, AddLst: growing the LST list account by 80 bytes and assigning the new entry with zero padding to its last element is what AddLst does to the list. -/
theorem C30_addLst {cfg : Cfg} {L : RatioLib} {env : Env cfg} {tx : TxInfo} {w w' : World} {accs : List Acc} (hk : ∀ a ∈ accs, Key32 a.key)
    (h : processIx cfg L env tx w accs .addLst = .ok w') {addr : Nat} {b : CtlBytes} (hb : b.Holds addr w.ctl) {fresh : List UInt8}
    (hf : fresh.length = 80) : ∃ s b', writeLast lstElem addr (extendList b.lsts fresh) (s, 0) .invalidLstStateListData = .ok b' ∧
      w'.ctl = { w.ctl with lsts := w.ctl.lsts ++ [s] } ∧ CtlBytes.Holds addr { b with lsts := b' } w'.ctl := by
  obtain ⟨r⟩ := processAddLst_inv h
  obtain ⟨l, hl, he⟩ := hb.lsts
  have e := congrArg World.ctl r.eq
  simp only at e
  have hks : Key32 r.a.lstMint.key ∧ Key32 r.a.solValueCalculator.key := by
    have hl := r.load
    unfold AddLstAccs.load at hl; split at hl
    · injection hl with hl; rw [← hl]; exact ⟨hk _ (by simp), hk _ (by simp)⟩
    · cases hl
  generalize hs : (⟨0, (cfg.findAta cfg.poolState r.m.program r.a.lstMint.key).2, (cfg.findAta cfg.protocolFee r.m.program r.a.lstMint.key).2, 0,
    r.a.lstMint.key, r.a.solValueCalculator.key⟩ : LstState) = s at e
  have ho : LstOk (s, 0) := by
    rw [← hs]
    exact ⟨⟨Nat.two_pow_pos 8, cfg.findAta_u8 _ _ _, cfg.findAta_u8 _ _ _, Nat.two_pow_pos 64, hks.1, hks.2⟩, Nat.two_pow_pos 40⟩
  obtain ⟨b', h1, h2⟩ := C30_append lstElem_lawful hl (fresh := fresh) (hf.trans (by decide)) ho .invalidLstStateListData
  refine ⟨s, b', h1, e, ?_⟩
  rw [e]
  exact ⟨hb.pool, ⟨_, h2, by simp [he]⟩, hb.auths, hb.rebal⟩

private theorem map_eraseIdx' {α β : Type} (f : α → β) (l : List α) (i : Nat) : (l.eraseIdx i).map f = (l.map f).eraseIdx i := by
  simp [List.eraseIdx_eq_take_drop_succ]

/-- C30, RemoveLst: shifting the later entries of the LST list account's bytes and cutting off 80 bytes is what RemoveLst does to the list. -/
theorem C30_removeLst {cfg : Cfg} {L : RatioLib} {env : Env cfg} {tx : TxInfo} {w w' : World} {accs : List Acc} {i : Nat}
    (h : processIx cfg L env tx w accs (.removeLst i) = .ok w') {addr : Nat} {b : CtlBytes} (hb : b.Holds addr w.ctl) (hlen : b.lsts.length < U64) :
    ∃ b', removeFromList lstElem b.lsts i = .ok b' ∧ CtlBytes.Holds addr { b with lsts := b' } w'.ctl := by
  obtain ⟨p, s, _, _, hs, _, e⟩ := processIx_ctl h
  obtain ⟨l, hl, he⟩ := hb.lsts
  have hi : i < l.length := by
    have := (List.getElem?_eq_some_iff.1 hs).1
    rwa [← he, List.length_map] at this
  obtain ⟨ha, ho, _⟩ := ((C30_read lstElem_lawful addr _).1 l).1 hl
  have h2 : tryList lstElem addr (listBytes lstElem (l.eraseIdx i)) = some (l.eraseIdx i) :=
    ((C30_read lstElem_lawful addr _).1 _).2 ⟨ha, fun x hx => ho x (List.mem_of_mem_eraseIdx hx), rfl⟩
  refine ⟨_, (C30_remove lstElem_lawful hl hlen).2 ⟨hi, h2⟩, ?_⟩
  rw [e]
  exact ⟨hb.pool, ⟨_, h2, by rw [map_eraseIdx', he]⟩, hb.auths, hb.rebal⟩

/-- C30, AddDisablePoolAuthority. -/
theorem C30_addAuthority {cfg : Cfg} {L : RatioLib} {env : Env cfg} {tx : TxInfo} {w w' : World} {accs : List Acc} (hk : ∀ a ∈ accs, Key32 a.key)
    (h : processIx cfg L env tx w accs .addDisablePoolAuthority = .ok w') {addr : Nat} {b : CtlBytes} (hb : b.Holds addr w.ctl) {fresh : List UInt8}
    (hf : fresh.length = 32) : ∃ k b', writeLast pubkeyElem addr (extendList b.auths fresh) k .invalidDisablePoolAuthorityListData = .ok b' ∧
      w'.ctl = { w.ctl with auths := w.ctl.auths ++ [k] } ∧ CtlBytes.Holds addr { b with auths := b' } w'.ctl := by
  obtain ⟨a, p, hl, hp, _, _, _, rfl⟩ := processAddAuth_inv h
  have hka : Key32 a.newAuthority.key := by
    unfold AddAuthAccs.load at hl; split at hl
    · injection hl with hl; rw [← hl]; exact hk _ (by simp)
    · cases hl
  obtain ⟨b', h1, h2⟩ := C30_append pubkeyElem_lawful hb.auths (fresh := fresh) hf hka .invalidDisablePoolAuthorityListData
  exact ⟨_, b', h1, rfl, ⟨hb.pool, hb.lsts, h2, hb.rebal⟩⟩

/-- C30, RemoveDisablePoolAuthority. -/
theorem C30_removeAuthority {cfg : Cfg} {L : RatioLib} {env : Env cfg} {tx : TxInfo} {w w' : World} {accs : List Acc} {i : Nat}
    (h : processIx cfg L env tx w accs (.removeDisablePoolAuthority i) = .ok w') {addr : Nat} {b : CtlBytes} (hb : b.Holds addr w.ctl)
    (hlen : b.auths.length < U64) :
    ∃ b', removeFromList pubkeyElem b.auths i = .ok b' ∧ CtlBytes.Holds addr { b with auths := b' } w'.ctl := by
  obtain ⟨p, k, _, hs, _, e⟩ := processIx_ctl h
  have hi : i < w.ctl.auths.length := (List.getElem?_eq_some_iff.1 hs).1
  obtain ⟨ha, ho, _⟩ := ((C30_read pubkeyElem_lawful addr _).1 _).1 hb.auths
  have h2 : tryList pubkeyElem addr (listBytes pubkeyElem (w.ctl.auths.eraseIdx i)) = some (w.ctl.auths.eraseIdx i) :=
    ((C30_read pubkeyElem_lawful addr _).1 _).2 ⟨ha, fun x hx => ho x (List.mem_of_mem_eraseIdx hx), rfl⟩
  refine ⟨_, (C30_remove pubkeyElem_lawful hb.auths hlen).2 ⟨hi, h2⟩, ?_⟩
  rw [e]
  exact ⟨hb.pool, hb.lsts, h2, hb.rebal⟩

-- The running example stored in accounts: lengths, reading back, removal of the first LST's entry on the bytes, and a write to the total.
namespace Ex

def actKeys {cfg : Cfg} : Action cfg → Bool
  | .ext _ _ => true
  | .call c => c.accs.all fun a => decide (a.key < 2 ^ 256)

theorem historyKeys_of {cfg : Cfg} {L : RatioLib} {w₀ : World} {h : List (Tx cfg)} (hh : (historyEvents L w₀ h).all (fun e => actKeys e.act) = true) :
    HistoryKeys L w₀ h := by
  intro e he c hc a ha
  have := List.all_eq_true.1 hh e he
  rw [hc] at this
  exact of_decide_eq_true (List.all_eq_true.1 this a ha)

example : HistoryKeys .ex w0 hist ∧ cfg.Key32 := ⟨historyKeys_of (by decide +kernel), by decide +kernel, by decide +kernel⟩

def bytes (c : Ctl) : CtlBytes := ⟨c.pool.elim [] (·.toBytes 7), listBytes lstElem (c.lsts.map fun s => (s, 5)), listBytes pubkeyElem c.auths,
  c.rebal.elim [] (·.toBytes 9)⟩

example : (bytes (st 9).ctl).pool.length = 176 ∧ (bytes (st 9).ctl).lsts.length = 160 ∧
    (tryList lstElem 8 (bytes (st 9).ctl).lsts).map (·.map Prod.fst) = some (st 9).ctl.lsts ∧
    ((tryPoolState 8 (bytes (st 9).ctl).pool).toOption.map Prod.fst) = (st 9).ctl.pool ∧
    tryList lstElem 8 ((bytes (st 9).ctl).lsts.drop 1) = none ∧ tryList lstElem 4 (bytes (st 9).ctl).lsts = none := by decide +kernel

example : ((removeFromList lstElem (bytes (st 9).ctl).lsts 0).toOption.bind fun b => (tryList lstElem 8 b).map (·.map Prod.fst)) =
    some ((st 9).ctl.lsts.eraseIdx 0) ∧ (removeFromList lstElem (bytes (st 9).ctl).lsts 2).toOption = none := by decide +kernel

example : ((tryPoolState 8 (writeField poolFields (bytes (st 9).ctl).pool 0 12345)).toOption.map fun x => (x.1.totalSolValue, x.2)) = some (12345, 7) := by
  decide +kernel

end Ex

end S

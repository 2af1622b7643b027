import Verif.Props.Invariants
/-
C02 (the pool is never left rebalancing), C03 (a rebalance cannot lower the recorded total), C32 (StartRebalance demands
a matching EndRebalance).
-/
set_option autoImplicit false
namespace S

/-! ### C32 -/

/-- The transaction has, after the instruction being executed, a top-level EndRebalance of the controller whose destination
LST mint account is `dstMint`. -/
def HasLaterEnd (cfg : Cfg) (tx : TxInfo) (dstMint : Pubkey) : Prop :=
  ∃ j ix a, tx.cur < j ∧ tx.ixs[j]? = some ix ∧ ix.program = cfg.programId ∧ ix.data.head? = some 20 ∧
    ix.accs[4]? = some a ∧ a.key = dstMint

theorem isEndRebalanceIx_iff {cfg : Cfg} {ix : TopIx} {m : Pubkey} :
    isEndRebalanceIx cfg ix m = true ↔ ix.program = cfg.programId ∧ ix.data.head? = some 20 ∧
      ∃ a, ix.accs[4]? = some a ∧ a.key = m := by
  obtain ⟨prog, accs, data⟩ := ix
  unfold isEndRebalanceIx
  cases data with
  | nil => simp
  | cons d r =>
    by_cases h1 : d = 20 <;> by_cases h2 : prog = cfg.programId <;> cases h3 : accs[4]? <;> simp_all

theorem searchEnd_iff {cfg : Cfg} {m : Pubkey} {l : List TopIx} :
    searchEndRebalance cfg m l = .ok () ↔ ∃ ix ∈ l, isEndRebalanceIx cfg ix m = true := by
  induction l with
  | nil => simp [searchEndRebalance]
  | cons x l ih =>
    simp only [searchEndRebalance]
    split
    · rename_i h; simp [h]
    · rename_i h; rw [ih]; simp [h]

theorem verifySucceedingEnd_iff {cfg : Cfg} {tx : TxInfo} {m : Pubkey} :
    verifySucceedingEnd cfg tx m = .ok () ↔ HasLaterEnd cfg tx m := by
  unfold verifySucceedingEnd HasLaterEnd
  rw [searchEnd_iff]
  constructor
  · rintro ⟨ix, hm, hi⟩
    obtain ⟨h1, h2, a, h3, h4⟩ := isEndRebalanceIx_iff.1 hi
    obtain ⟨j, hj⟩ := List.mem_iff_getElem?.1 hm
    rw [List.getElem?_drop] at hj
    exact ⟨tx.cur + 1 + j, ix, a, by omega, hj, h1, h2, h3, h4⟩
  · rintro ⟨j, ix, a, hj, hx, h1, h2, h3, h4⟩
    refine ⟨ix, List.mem_iff_getElem?.2 ⟨j - (tx.cur + 1), ?_⟩, isEndRebalanceIx_iff.2 ⟨h1, h2, a, h3, h4⟩⟩
    rw [List.getElem?_drop, show tx.cur + 1 + (j - (tx.cur + 1)) = j by omega]; exact hx

theorem StartRebAccs.load_dst {accs : List Acc} {a : StartRebAccs} {r : List Acc}
    (h : StartRebAccs.load accs = .ok (a, r)) : accs[5]? = some a.dstLstMint := by
  unfold StartRebAccs.load at h; split at h
  · injection h with h; injection h with h _; subst h; rfl
  · cases h

/-- C32: a StartRebalance succeeds only in a transaction that has a later EndRebalance for the same destination mint (the
account at position 5 of the instruction), and what else the transaction contains makes no difference: in every other
transaction with such an EndRebalance it succeeds with the same result. -/
theorem C32_start_needs_end {cfg : Cfg} {L : RatioLib} {env : Env cfg} {tx : TxInfo} {w w' : World} {accs : List Acc}
    {args : StartRebalanceArgs} (h : processIx cfg L env tx w accs (.startRebalance args) = .ok w') :
    ∃ dst, accs[5]? = some dst ∧ HasLaterEnd cfg tx dst.key ∧
      ∀ tx', processIx cfg L env tx' w accs (.startRebalance args) = .ok w' ↔ HasLaterEnd cfg tx' dst.key := by
  obtain ⟨r⟩ := processStartRebalance_inv h
  refine ⟨r.a.dstLstMint, StartRebAccs.load_dst r.load, verifySucceedingEnd_iff.1 r.succ, fun tx' => ⟨?_, ?_⟩⟩
  · intro h'
    obtain ⟨r'⟩ := processStartRebalance_inv h'
    have e := StartRebAccs.load_dst r'.load
    rw [StartRebAccs.load_dst r.load] at e
    injection e with e
    rw [e]; exact verifySucceedingEnd_iff.1 r'.succ
  · intro h'
    have e : verifySucceedingEnd cfg tx r.a.dstLstMint.key = verifySucceedingEnd cfg tx' r.a.dstLstMint.key := by
      rw [r.succ, verifySucceedingEnd_iff.2 h']
    simp only [processIx, processStartRebalance, verifyStartRebalance, r.load] at h ⊢
    simp only [bind, Except.bind] at h ⊢
    rw [e] at h
    exact h

/-! ### C02 -/

/-- Only a StartRebalance that saw a later EndRebalance creates a record. -/
theorem CtlStep.starts {cfg : Cfg} {tx : TxInfo} {w : World} {accs : List Acc} {c' : Ctl} {ix : Ix}
    (h : CtlStep cfg tx w accs c' ix) (hne : c'.rebal ≠ none) :
    w.ctl.rebal ≠ none ∨ ∃ m, HasLaterEnd cfg tx m := by
  cases ix with
  | syncSolValue i => obtain ⟨p, _, hs⟩ := h; rw [hs.onlyValues.rebal] at hne; exact .inl hne
  | swapExactIn args => obtain ⟨p, s, _, _, _, hs⟩ := h; rw [hs.onlyValues.rebal] at hne; exact .inl hne
  | swapExactOut args => obtain ⟨p, s, _, _, _, hs⟩ := h; rw [hs.onlyValues.rebal] at hne; exact .inl hne
  | addLiquidity args => obtain ⟨p, s, _, _, _, hs⟩ := h; rw [hs.onlyValues.rebal] at hne; exact .inl hne
  | removeLiquidity args => obtain ⟨p, _, hs⟩ := h; rw [hs.onlyValues.rebal] at hne; exact .inl hne
  | disableLstInput i => obtain ⟨p, s, _, _, _, rfl⟩ := h; exact .inl hne
  | enableLstInput i => obtain ⟨p, s, _, _, _, rfl⟩ := h; exact .inl hne
  | addLst => obtain ⟨p, s, ha, _, _, _, _, _, _, _, rfl⟩ := h; exact .inl hne
  | removeLst i => obtain ⟨p, s, ha, _, _, _, rfl⟩ := h; exact .inl hne
  | setSolValueCalculator i =>
    obtain ⟨p, s, prog, _, _, _, _, hs⟩ := h; rw [hs.onlyValues.rebal] at hne; exact .inl hne
  | setAdmin => obtain ⟨p, k, _, _, rfl⟩ := h; exact .inl hne
  | setProtocolFee args => obtain ⟨p, _, _, _, _, rfl⟩ := h; exact .inl hne
  | setProtocolFeeBeneficiary => obtain ⟨p, k, _, _, rfl⟩ := h; exact .inl hne
  | setPricingProgram => obtain ⟨p, k, _, _, _, rfl⟩ := h; exact .inl hne
  | withdrawProtocolFees n => obtain ⟨p, _, _, rfl⟩ := h; exact .inl hne
  | addDisablePoolAuthority => obtain ⟨p, k, _, _, _, rfl⟩ := h; exact .inl hne
  | removeDisablePoolAuthority i => obtain ⟨p, k, _, _, _, rfl⟩ := h; exact .inl hne
  | disablePool => obtain ⟨p, _, _, rfl⟩ := h; exact .inl hne
  | enablePool => obtain ⟨p, _, _, _, rfl⟩ := h; exact .inl hne
  | startRebalance args =>
    obtain ⟨p, s, c2, c3, p2, p3, dm, _, _, hd, _, _, hsucc, _⟩ := h
    exact .inr ⟨dm, verifySucceedingEnd_iff.1 hsucc⟩
  | endRebalance => obtain ⟨p, rr, c1, p1, _, _, _, _, _, _, _, rfl⟩ := h; exact absurd rfl hne
  | setRebalanceAuthority => obtain ⟨p, k, _, _, rfl⟩ := h; exact .inl hne
  | «initialize» => obtain ⟨k, _, _, rfl⟩ := h; exact .inl hne

/-- A record stays as it is until an EndRebalance. -/
theorem CtlStep.keeps {cfg : Cfg} {tx : TxInfo} {w : World} {accs : List Acc} {c' : Ctl} {ix : Ix} {rr : RebalanceRecord}
    (h : CtlStep cfg tx w accs c' ix) (hr : w.ctl.rebal = some rr) (hne : ix ≠ .endRebalance) : c'.rebal = some rr := by
  cases ix with
  | syncSolValue i => obtain ⟨p, _, hs⟩ := h; rw [hs.onlyValues.rebal]; exact hr
  | swapExactIn args => obtain ⟨p, s, _, _, _, hs⟩ := h; rw [hs.onlyValues.rebal]; exact hr
  | swapExactOut args => obtain ⟨p, s, _, _, _, hs⟩ := h; rw [hs.onlyValues.rebal]; exact hr
  | addLiquidity args => obtain ⟨p, s, _, _, _, hs⟩ := h; rw [hs.onlyValues.rebal]; exact hr
  | removeLiquidity args => obtain ⟨p, _, hs⟩ := h; rw [hs.onlyValues.rebal]; exact hr
  | disableLstInput i => obtain ⟨p, s, _, _, _, rfl⟩ := h; exact hr
  | enableLstInput i => obtain ⟨p, s, _, _, _, rfl⟩ := h; exact hr
  | addLst => obtain ⟨p, s, ha, _, _, _, _, _, _, _, rfl⟩ := h; exact hr
  | removeLst i => obtain ⟨p, s, ha, _, _, _, rfl⟩ := h; exact hr
  | setSolValueCalculator i => obtain ⟨p, s, prog, _, _, _, _, hs⟩ := h; rw [hs.onlyValues.rebal]; exact hr
  | setAdmin => obtain ⟨p, k, _, _, rfl⟩ := h; exact hr
  | setProtocolFee args => obtain ⟨p, _, _, _, _, rfl⟩ := h; exact hr
  | setProtocolFeeBeneficiary => obtain ⟨p, k, _, _, rfl⟩ := h; exact hr
  | setPricingProgram => obtain ⟨p, k, _, _, _, rfl⟩ := h; exact hr
  | withdrawProtocolFees n => obtain ⟨p, _, _, rfl⟩ := h; exact hr
  | addDisablePoolAuthority => obtain ⟨p, k, _, _, _, rfl⟩ := h; exact hr
  | removeDisablePoolAuthority i => obtain ⟨p, k, _, _, _, rfl⟩ := h; exact hr
  | disablePool => obtain ⟨p, _, _, rfl⟩ := h; exact hr
  | enablePool => obtain ⟨p, _, _, _, rfl⟩ := h; exact hr
  | startRebalance args =>
    obtain ⟨p, s, c2, c3, p2, p3, dm, _, _, hd, _, _, hsucc, s2, _, s3, _, hn, _⟩ := h
    rw [s3.onlyValues.rebal, s2.onlyValues.rebal, hr] at hn; cases hn
  | endRebalance => exact absurd rfl hne
  | setRebalanceAuthority => obtain ⟨p, k, _, _, rfl⟩ := h; exact hr
  | «initialize» => obtain ⟨k, _, _, rfl⟩ := h; exact hr

theorem Action.starts {cfg : Cfg} {L : RatioLib} {tx : TxInfo} {w w' : World} {a : Action cfg}
    (h : a.run L tx w = .ok w') (hne : w'.ctl.rebal ≠ none) : w.ctl.rebal ≠ none ∨ ∃ m, HasLaterEnd cfg tx m := by
  rcases Action.run_ok h with ⟨hc, _⟩ | ⟨c, ix, _, _, _, hp⟩
  · rw [hc] at hne; exact .inl hne
  · exact (processIx_ctl hp).starts hne

theorem runActions_starts {cfg : Cfg} {L : RatioLib} {tx : TxInfo} {w w' : World} {as : List (Action cfg)}
    (h : runActions L tx w as = .ok w') (hne : w'.ctl.rebal ≠ none) :
    w.ctl.rebal ≠ none ∨ ∃ m, HasLaterEnd cfg tx m := by
  induction as generalizing w with
  | nil => simp only [runActions, Except.ok.injEq] at h; subst h; exact .inl hne
  | cons a as ih =>
    simp only [runActions, bind_ok] at h
    obtain ⟨w1, h1, h2⟩ := h
    rcases ih h2 with h' | h'
    · exact Action.starts h1 h'
    · exact .inr h'

/-- A controller call whose data starts with byte 20 ends the rebalance. -/
theorem Call.end_closes {cfg : Cfg} {L : RatioLib} {tx : TxInfo} {w w' : World} {c : Call cfg}
    (h : c.run L tx w = .ok w') (hd : c.data.head? = some 20) : w'.ctl.rebal = none := by
  obtain ⟨_, ix, hx, hp⟩ := Call.run_ok h
  obtain ⟨_, rest, e⟩ := C38_decoded hx
  have : ix = .endRebalance := by
    rw [e] at hd; cases ix <;> simp [Ix.encode, Ix.discm] at hd; rfl
  subst this
  obtain ⟨p, rr, c1, p1, _, _, _, _, _, _, _, hc⟩ := processIx_ctl hp
  rw [hc]

theorem runSteps_closes {cfg : Cfg} {L : RatioLib} {ixs : List TopIx} {i : Nat} {w w' : World} {ss : List (Step cfg)}
    (hix : ixs.drop i = ss.map Step.top)
    (hw : w.ctl.rebal ≠ none → ∃ j ix, i ≤ j ∧ ixs[j]? = some ix ∧ ix.program = cfg.programId ∧ ix.data.head? = some 20)
    (h : runSteps L ixs i w ss = .ok w') : w'.ctl.rebal = none := by
  induction ss generalizing i w with
  | nil =>
    simp only [runSteps, Except.ok.injEq] at h; subst h
    cases hr : w.ctl.rebal with
    | none => rfl
    | some rr =>
      obtain ⟨j, ix, hj, hx, _⟩ := hw (by rw [hr]; simp)
      have := (List.getElem?_eq_some_iff.1 hx).1
      have hl := congrArg List.length hix
      simp at hl; omega
  | cons s ss ih =>
    simp only [runSteps, bind_ok] at h
    obtain ⟨w1, h1, h2⟩ := h
    have hi : ixs[i]? = some s.top := by
      have := congrArg (·[0]?) hix; simpa using this
    refine ih (i := i + 1) ?_ ?_ h2
    · have := congrArg (List.drop 1) hix
      simpa [List.drop_drop, Nat.add_comm] using this
    · intro hne
      rcases runActions_starts (Step.run_actions h1) hne with hr | ⟨m, j, ix, a, hj, hx, hp, hd, _⟩
      · obtain ⟨j, ix, hj, hx, hp, hd⟩ := hw hr
        rcases Nat.lt_or_eq_of_le hj with hlt | heq
        · exact ⟨j, ix, hlt, hx, hp, hd⟩
        · subst heq
          rw [hi] at hx; injection hx with hx; subst hx
          cases s with
          | controller c => exact absurd (Call.end_closes h1 hd) hne
          | foreign ix n as => exact absurd hp n
      · exact ⟨j, ix, hj, hx, hp, hd⟩

theorem Tx.apply_closes {cfg : Cfg} (L : RatioLib) {w : World} (t : Tx cfg) (hw : w.ctl.rebal = none) :
    (Tx.apply L w t).ctl.rebal = none := by
  unfold Tx.apply
  cases h : Tx.run L w t with
  | error e => exact hw
  | ok w' => exact runSteps_closes (i := 0) rfl (fun hn => absurd hw hn) h

theorem runHistory_closes {cfg : Cfg} (L : RatioLib) {w : World} (h : List (Tx cfg)) (hw : w.ctl.rebal = none) :
    (runHistory L w h).ctl.rebal = none := by
  induction h generalizing w with
  | nil => exact hw
  | cons t h ih => exact ih (Tx.apply_closes L t hw)

/-- C02: after any history of transactions, the pool is not rebalancing and no rebalance record exists. -/
theorem C02_never_left_rebalancing {cfg : Cfg} (L : RatioLib) {w₀ : World} (hf : World.Fresh cfg w₀) (h : List (Tx cfg)) :
    (runHistory L w₀ h).ctl.rebal = none ∧ ∀ p, (runHistory L w₀ h).ctl.pool = some p → p.isRebalancing = 0 := by
  have hr := runHistory_closes L h (w := w₀) (by rw [hf.ctl]; rfl)
  refine ⟨hr, fun p hp => ?_⟩
  have := (history_inv (L := L) hf h).2.ctl.rebal p hp
  by_cases hz : p.isRebalancing = 0
  · exact hz
  · exact absurd hr (this.1 hz)

-- `tRebalance` really starts a rebalance: inside it the pool is rebalancing.
example : (Ex.hist.length = 9) ∧ ((historyEvents .ex Ex.w0 Ex.hist).map fun e =>
    e.pre.ctl.pool.map (·.isRebalancing)) =
      [none, some 0, some 0, some 0, some 0, some 0, some 0, some 0, some 0, some 1, some 1] ∧
    (Ex.st 9).ctl.pool.map (·.isRebalancing) = some 0 := by decide +kernel

/-! ### C03 -/

theorem Chain.split {cfg : Cfg} {w w' : World} {as bs : List (Event cfg)} (h : Chain w (as ++ bs) w') :
    ∃ m, Chain w as m ∧ Chain m bs w' := by
  induction as generalizing w with
  | nil => exact ⟨w, .nil _, h⟩
  | cons a as ih =>
    cases h with
    | cons h => obtain ⟨m, h1, h2⟩ := ih h; exact ⟨m, .cons h1, h2⟩

/-- A record present at the start of a chain and absent at its end was closed by an EndRebalance in between, which found
it unchanged. -/
theorem Chain.closes {cfg : Cfg} {L : RatioLib} {w w' : World} {es : List (Event cfg)} {rr : RebalanceRecord}
    (hc : Chain w es w') (hr : ∀ e ∈ es, e.act.run L e.tx e.pre = .ok e.post) (h : w.ctl.rebal = some rr)
    (h' : w'.ctl.rebal = none) :
    ∃ es₁ e es₂ accs, es = es₁ ++ e :: es₂ ∧ e.IsIx accs .endRebalance ∧ e.pre.ctl.rebal = some rr ∧
      ∀ x ∈ es₁, ∀ accs, ¬ x.IsIx accs .endRebalance := by
  induction hc with
  | nil => rw [h] at h'; cases h'
  | @cons w' e es hc ih =>
    have hrun := hr e (List.mem_cons_self ..)
    have later : e.post.ctl.rebal = some rr → (∀ accs, ¬ e.IsIx accs .endRebalance) →
        ∃ es₁ e' es₂ accs, e :: es = es₁ ++ e' :: es₂ ∧ e'.IsIx accs .endRebalance ∧ e'.pre.ctl.rebal = some rr ∧
          ∀ x ∈ es₁, ∀ accs, ¬ x.IsIx accs .endRebalance := fun hp hn => by
      obtain ⟨es₁, e', es₂, accs, rfl, h1, h2, h3⟩ := ih (fun x hx => hr x (List.mem_cons_of_mem _ hx)) hp h'
      exact ⟨e :: es₁, e', es₂, accs, rfl, h1, h2, by
        intro x hx
        rcases List.mem_cons.1 hx with rfl | hx
        · exact hn
        · exact h3 x hx⟩
    rcases Action.run_ok hrun with ⟨hcc, _⟩ | ⟨c, ix, ha, _, hd, hp⟩
    · by_cases hn : ∃ accs, e.IsIx accs .endRebalance
      · obtain ⟨accs, hn⟩ := hn
        exact ⟨[], e, es, accs, rfl, hn, h, by simp⟩
      · exact later (by rw [hcc]; exact h) (fun accs hx => hn ⟨accs, hx⟩)
    · by_cases hx : ix = .endRebalance
      · subst hx
        exact ⟨[], e, es, c.accs, rfl, ⟨c, ha, rfl, hd⟩, h, by simp⟩
      · refine later ((processIx_ctl hp).keeps h hx) ?_
        rintro accs ⟨c', ha', _, hd'⟩
        rw [ha] at ha'; injection ha' with ha'; subst ha'
        rw [hd] at hd'; injection hd' with hd'; exact hx hd'

/-- What EndRebalance guarantees about the record it closes. -/
theorem end_noLoss {cfg : Cfg} {L : RatioLib} {e : Event cfg} {accs : List Acc} {rr : RebalanceRecord}
    (hrun : e.act.run L e.tx e.pre = .ok e.post) (he : e.IsIx accs .endRebalance) (hr : e.pre.ctl.rebal = some rr) :
    e.post.ctl.rebal = none ∧ ∃ p, e.post.ctl.pool = some p ∧ p.isRebalancing = 0 ∧ rr.oldTotalSolValue ≤ p.totalSolValue := by
  obtain ⟨c, ha, rfl, hd⟩ := he
  rw [ha] at hrun
  obtain ⟨_, ix, hd', hp⟩ := Call.run_ok hrun
  rw [hd] at hd'; injection hd' with hd'; subst hd'
  obtain ⟨p, rr', c1, p1, hp0, _, hr', _, hs, hp1, hle, hc⟩ := processIx_ctl hp
  rw [hr] at hr'; injection hr' with hr'; subst hr'
  rw [hc]
  obtain ⟨t, ht⟩ := hs.onlyValues.pool _ rfl
  rw [hp1] at ht; injection ht with ht
  exact ⟨rfl, p1, hp1, by rw [ht], hle⟩

/-- The sum of the recorded values after replacing those of entries `i` and `j` (in this order). -/
def sumWith (ls : List LstState) (i vi j vj : Nat) : Nat :=
  ((ls.map fun s => s.solValue).set i vi |>.set j vj).sum

theorem set_values (ls : List LstState) (i v : Nat) (s : LstState) :
    (ls.set i { s with solValue := v }).map (fun s => s.solValue) = (ls.map fun s => s.solValue).set i v := by
  rw [List.map_set]

/-- What StartRebalance records: the total with the source and destination LSTs valued, at their full reserves, by their
calculators, before the withdrawal. -/
theorem start_record {cfg : Cfg} {L : RatioLib} {env : Env cfg} {tx : TxInfo} {w w' : World} {accs : List Acc}
    {args : StartRebalanceArgs} (hi : Inv cfg w)
    (h : processIx cfg L env tx w accs (.startRebalance args) = .ok w') :
    ∃ src dst srcRes dstRes sa w1 da rs rd ms md ls ld,
      w.ctl.lsts[args.srcLstIndex]? = some src ∧ w.ctl.lsts[args.dstLstIndex]? = some dst ∧
      accs[6]? = some srcRes ∧ accs[7]? = some dstRes ∧
      w.led.tok srcRes.key = some sa ∧
      env.askCalc 0 w src.solValueCalculator ms (.lstToSol sa.amount) = .ok (rs, ls) ∧
      w1.led = ls ∧ w1.led.tok dstRes.key = some da ∧
      env.askCalc 1 w1 dst.solValueCalculator md (.lstToSol da.amount) = .ok (rd, ld) ∧
      w'.ctl.rebal = some ⟨sumWith w.ctl.lsts args.srcLstIndex rs.min args.dstLstIndex rd.min, args.dstLstIndex⟩ := by
  obtain ⟨r⟩ := processStartRebalance_inv h
  have h6 : accs[6]? = some r.a.srcPoolReserves ∧ accs[7]? = some r.a.dstPoolReserves := by
    have hl := r.load
    unfold StartRebAccs.load at hl; split at hl
    · injection hl with hl; injection hl with hl _; rw [← hl]; exact ⟨rfl, rfl⟩
    · cases hl
  have hc := r.cpis
  simp only [verifySrcDstCpis, bind_ok, Prod.exists, splitAt_ok, pure_ok] at hc
  obtain ⟨x, y, _, cs, hcs, cd, hcd, e⟩ := hc
  have es := verifyCalcCpi_sel hcs r.srcSel.get
  have ed := verifyCalcCpi_sel hcd r.dstSel.get
  have esp : r.c.src.program = r.src.solValueCalculator := by rw [← e]; exact es.program
  have edp : r.c.dst.program = r.dst.solValueCalculator := by rw [← e]; exact ed.program
  have q0 := r.sync0.ask
  have q1 := r.sync1.ask
  rw [esp] at q0
  rw [edp] at q1
  refine ⟨r.src, r.dst, r.a.srcPoolReserves, r.a.dstPoolReserves, r.acc0, r.w1, r.acc1, r.r0, r.r1, _, _, _, _, r.srcSel.get,
    r.dstSel.get, h6.1, h6.2, r.sync0.tok, q0, rfl, r.sync1.tok, q1, ?_⟩
  have e' := congrArg (fun w => w.ctl.rebal) r.eq
  simp only at e'
  rw [e']
  have i2 := (hi.ctl.sync r.sync0.sync).sync r.sync1.sync
  have ht := i2.total r.p2 r.pool2
  obtain ⟨p0, s0, f0⟩ := ctlSync_ok.1 r.sync0.sync
  obtain ⟨p1, s1, f1⟩ := ctlSync_ok.1 r.sync1.sync
  have l1 : r.w1.ctl.lsts.map (fun s => s.solValue) = (w.ctl.lsts.map fun s => s.solValue).set args.srcLstIndex r.r0.min := by
    rw [f0.eq]; exact set_values _ _ _ _
  have l2 : r.w2.ctl.lsts.map (fun s => s.solValue) = ((r.w1.ctl.lsts.map fun s => s.solValue)).set args.dstLstIndex r.r1.min := by
    rw [f1.eq]; exact set_values _ _ _ _
  have : r.p2.totalSolValue = sumWith w.ctl.lsts args.srcLstIndex r.r0.min args.dstLstIndex r.r1.min := by
    rw [ht]; unfold sumSol sumWith; rw [← l1, ← l2]
  rw [this]

/-- C03: in every committed transaction, a StartRebalance is followed by the EndRebalance that closes it, and the recorded
total after that is at least `T`, the recorded total at the start of the rebalance: the sum of the recorded values with the
source and destination LSTs valued at their full reserves, before any LST left the pool. -/
theorem C03_rebalance_keeps_total {cfg : Cfg} (L : RatioLib) {w₀ : World} (hf : World.Fresh cfg w₀) (h : List (Tx cfg))
    (t : Tx cfg) {es₁ es₂ : List (Event cfg)} {e : Event cfg} {accs : List Acc} {args : StartRebalanceArgs}
    (he : Tx.events L (runHistory L w₀ h) t = es₁ ++ e :: es₂) (hs : e.IsIx accs (.startRebalance args)) :
    ∃ T es₃ e' es₄ accs' p,
      -- `T` is what StartRebalance recorded, see `C03_start_total`
      e.post.ctl.rebal = some ⟨T, args.dstLstIndex⟩ ∧
      -- the first EndRebalance after it
      es₂ = es₃ ++ e' :: es₄ ∧ e'.IsIx accs' .endRebalance ∧ (∀ x ∈ es₃, ∀ a, ¬ x.IsIx a .endRebalance) ∧
      e'.post.ctl.pool = some p ∧ p.isRebalancing = 0 ∧ T ≤ p.totalSolValue ∧
      T ≤ (e'.post.ctl.lsts.map fun s => s.solValue).sum := by
  obtain ⟨hchain, hall⟩ := Tx.events_chain L (runHistory L w₀ h) t
  rw [he] at hchain hall
  obtain ⟨m, _, hc2⟩ := hchain.split
  have hrun := hall e (by simp)
  -- the record
  have hrec : ∃ T, e.post.ctl.rebal = some ⟨T, args.dstLstIndex⟩ := by
    obtain ⟨c, ha, rfl, hd⟩ := hs
    rw [ha] at hrun
    obtain ⟨_, ix, hd', hp⟩ := Call.run_ok hrun
    rw [hd] at hd'; injection hd' with hd'; subst hd'
    obtain ⟨p, s, c2, c3, p2, p3, dm, _, _, _, _, _, _, _, _, _, _, _, hc⟩ := processIx_ctl hp
    rw [hc]; exact ⟨_, rfl⟩
  obtain ⟨T, hT⟩ := hrec
  cases hc2 with
  | cons hc3 =>
    have hfin : (Tx.apply L (runHistory L w₀ h) t).ctl.rebal = none :=
      Tx.apply_closes L t (C02_never_left_rebalancing L hf h).1
    obtain ⟨es₃, e', es₄, accs', rfl, h1, h2, h3⟩ := hc3.closes (L := L) (fun x hx => hall x (by simp [hx])) hT hfin
    have hrun' := hall e' (by simp)
    obtain ⟨_, p, hp, hz, hle⟩ := end_noLoss hrun' h1 h2
    have hin : Inv cfg e'.post := by
      have hi := (history_inv (L := L) hf h).2
      have := (hchain.inv (L := L) hall (fun h hr => h.action hr) hi).1 e' (by simp)
      exact this.2
    refine ⟨T, es₃, e', es₄, accs', p, hT, rfl, h1, h3, hp, hz, hle, ?_⟩
    have := hin.ctl.total p hp
    have hle' : T ≤ p.totalSolValue := hle
    rw [this] at hle'; exact hle'

/-- C03, the value recorded by StartRebalance: the sum of the recorded values of all LSTs, with the source (destination) LST
valued at the minimum its calculator returns for the whole balance of the pool's source (destination) reserves. -/
theorem C03_start_total {cfg : Cfg} (L : RatioLib) {w₀ : World} (hf : World.Fresh cfg w₀) (h : List (Tx cfg))
    {e : Event cfg} (he : e ∈ historyEvents L w₀ h) {c : Call cfg} {args : StartRebalanceArgs}
    (ha : e.act = .call c) (hd : decodeIx c.data = .ok (.startRebalance args)) :
    ∃ src dst srcRes dstRes sa w1 da rs rd ms md ls ld,
      e.pre.ctl.lsts[args.srcLstIndex]? = some src ∧ e.pre.ctl.lsts[args.dstLstIndex]? = some dst ∧
      c.accs[6]? = some srcRes ∧ c.accs[7]? = some dstRes ∧
      e.pre.led.tok srcRes.key = some sa ∧
      c.env.askCalc 0 e.pre src.solValueCalculator ms (.lstToSol sa.amount) = .ok (rs, ls) ∧
      w1.led = ls ∧ w1.led.tok dstRes.key = some da ∧
      c.env.askCalc 1 w1 dst.solValueCalculator md (.lstToSol da.amount) = .ok (rd, ld) ∧
      e.post.ctl.rebal =
        some ⟨sumWith e.pre.ctl.lsts args.srcLstIndex rs.min args.dstLstIndex rd.min, args.dstLstIndex⟩ := by
  have hrun := (historyEvents_chain L w₀ h).2 e he
  rw [ha] at hrun
  obtain ⟨_, ix, hd', hp⟩ := Call.run_ok hrun
  rw [hd] at hd'; injection hd' with hd'; subst hd'
  exact start_record ((history_inv hf h).1 e he).1 hp

-- The rebalance of the example: 50136 recorded at the start, 44136 in between, 50136 at the end.
example : ((historyEvents .ex Ex.w0 Ex.hist).map fun e => (e.post.ctl.rebal.map (·.oldTotalSolValue),
    e.post.ctl.pool.map (·.totalSolValue))).drop 8 =
      [(some 50136, some 44136), (some 50136, some 44136), (none, some 50136)] := by decide +kernel

end S

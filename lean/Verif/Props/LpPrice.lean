import Verif.Props.Rates
import Verif.Props.Trades
import Verif.Props.Supply
import Verif.Props.Rebalance
import Mathlib.Data.Rat.Defs
import Mathlib.Algebra.Order.Field.Rat
import Mathlib.Tactic.FieldSimp
import Mathlib.Tactic.Linarith
/-
C51: over any history the value of an LP token does not fall while the values of the LSTs do not.
-/
set_option autoImplicit false
namespace S

/-! ### Specification -/

/-- A calculator with its stake pool data for every LST mint. -/
abbrev Valuation : Type := Pubkey → AnyCalc

/-- No LST is recorded at more than its reserves are worth. -/
def Backed (cfg : Cfg) (val : Valuation) (w : World) : Prop :=
  ∀ s ∈ w.ctl.lsts, ∀ k, IsReserves cfg w s k → s.solValue ≤ (val s.mint).f (bal w.led k)

/-- The calculators called during the event value the listed LSTs by `val`, on usable stake pools, and change no accounts. The pricing
program's answers are arbitrary. -/
def Event.Follows {cfg : Cfg} (L : RatioLib) (val : Valuation) (e : Event cfg) : Prop :=
  (∀ m, (val m).Usable) ∧ ∀ c, e.act = .call c → c.env.Quiet ∧
    ∀ s, s ∈ e.pre.ctl.lsts ∨ s ∈ e.post.ctl.lsts → c.env.Values L s.solValueCalculator s.mint (val s.mint)

/-- Rounding loss, in lamports for all LP tokens together, that the event can cause: none but in deposits and redemptions of an LST whose
calculator charges a withdrawal fee. -/
def Event.loss {cfg : Cfg} (val : Valuation) (e : Event cfg) : Nat :=
  match e.act with
  | .ext _ _ => 0
  | .call c =>
    match decodeIx c.data with
    | .ok (.addLiquidity a) => (e.pre.ctl.lsts[a.lstIndex]?).elim 0 fun s => (val s.mint).depositSlack
    | .ok (.removeLiquidity a) => (e.pre.ctl.lsts[a.lstIndex]?).elim 0 fun s => (val s.mint).redeemSlack
    | _ => 0

/-- A period in which no LST loses value: the events are valued by successive valuations, each giving every amount of every LST at least
the value the one before gave it, from a first one `val` to a last one. `q` is the sum of the rounding losses per LP token. -/
inductive Rising {cfg : Cfg} (L : RatioLib) : Valuation → List (Event cfg) → Valuation → Rat → Prop
  | nil (val : Valuation) : Rising L val [] val 0
  | cons {val val₁ val' : Valuation} {e : Event cfg} {es : List (Event cfg)} {q : Rat} (up : ∀ m x, (val m).f x ≤ (val₁ m).f x)
      (follows : e.Follows L val₁) (rest : Rising L val₁ es val' q) :
      Rising L val (e :: es) val' (e.loss val₁ / lpSupply e.post + q)

/-- Recorded SOL value of the pool per LP token. -/
def lpPrice (w : World) : Rat := totalOf w / lpSupply w

/-! ### Values and balances -/

theorem AnyCalc.fmono {c : AnyCalc} (h : c.Usable) {x y : Nat} (hxy : x ≤ y) : c.f x ≤ c.f y := by
  by_cases ha : c.Answers
  · exact (c.conv h ha).fmono hxy
  · cases c with
    | marinade c =>
      have : c.totalVirtualStaked.toOption = none := by
        cases hc : c.totalVirtualStaked with
        | ok n => exact absurd ⟨n, hc⟩ ha
        | error e => rfl
      simp only [AnyCalc.f, this, Option.getD_none, Nat.mul_zero]
      exact Nat.le_refl _
    | _ => exact absurd True.intro ha

theorem transfer_ge {l l' : Ledger} {t : TransferAccs} {n : Nat} (h : transfer l t n = .ok l') {k : Pubkey} (hk : k ≠ t.src) :
    bal l k ≤ bal l' k := by
  have := transfer_bal h k
  rw [only_ne _ hk] at this
  omega

theorem mintTo_ge {l l' : Ledger} {m d tp a : Pubkey} {n : Nat} (h : mintTo l m d tp a n = .ok l') (k : Pubkey) :
    bal l k ≤ bal l' k := by
  have := mintTo_bal h k; omega

theorem burn_ge {l l' : Ledger} {m d tp a : Pubkey} {n : Nat} (h : burn l m d tp a n = .ok l') {k : Pubkey} (hk : k ≠ d) :
    bal l k ≤ bal l' k := by
  have := burn_bal h k
  rw [only_ne _ hk] at this
  omega

/-- The programs of mints stay. -/
def SamePrograms (l l' : Ledger) : Prop := ∀ k, (l'.mints k).map Mint.program = (l.mints k).map Mint.program

theorem SamePrograms.isReserves {cfg : Cfg} {w w' : World} (h : SamePrograms w.led w'.led) {s s' : LstState}
    (hm : s'.mint = s.mint) (hb : s'.poolReservesBump = s.poolReservesBump) {k : Pubkey} :
    IsReserves cfg w' s' k ↔ IsReserves cfg w s k := by
  have := h s.mint
  unfold IsReserves
  rw [hm, hb]
  constructor
  · rintro ⟨m, h1, h2⟩
    rw [h1] at this
    cases h3 : w.led.mints s.mint with
    | none => rw [h3] at this; cases this
    | some m' => rw [h3] at this; injection this with this; exact ⟨m', rfl, by rw [← this]; exact h2⟩
  · rintro ⟨m, h1, h2⟩
    rw [h1] at this
    cases h3 : w'.led.mints s.mint with
    | none => rw [h3] at this; cases this
    | some m' => rw [h3] at this; injection this with this; exact ⟨m', rfl, by rw [this]; exact h2⟩

theorem SamePrograms.refl (l : Ledger) : SamePrograms l l := fun _ => rfl
theorem SamePrograms.of_eq {l l' : Ledger} (h : l'.mints = l.mints) : SamePrograms l l' := fun k => by rw [h]
theorem SamePrograms.trans {l l1 l2 : Ledger} (h : SamePrograms l l1) (h' : SamePrograms l1 l2) : SamePrograms l l2 :=
  fun k => (h' k).trans (h k)

theorem mintTo_programs {l l' : Ledger} {m d tp a : Pubkey} {n : Nat} (h : mintTo l m d tp a n = .ok l') : SamePrograms l l' := by
  obtain ⟨mt, b, f⟩ := mintTo_ok.1 h
  intro k
  rw [f.eq]
  simp only [Ledger.setMint, Ledger.setTok, upd]
  split
  · rename_i e; subst e; rw [f.hmint]; rfl
  · rfl

theorem burn_programs {l l' : Ledger} {m d tp a : Pubkey} {n : Nat} (h : burn l m d tp a n = .ok l') : SamePrograms l l' := by
  obtain ⟨mt, b, f⟩ := burn_ok.1 h
  intro k
  rw [f.eq]
  simp only [Ledger.setMint, Ledger.setTok, upd]
  split
  · rename_i e; subst e; rw [f.hmint]; rfl
  · rfl

/-! ### Small steps -/

/-- `Backed`, but for the entries at the indices `J`. -/
def BackedBut (cfg : Cfg) (val : Valuation) (J : Nat → Prop) (w : World) : Prop :=
  ∀ (j : Nat) s k, w.ctl.lsts[j]? = some s → IsReserves cfg w s k → ¬ J j → s.solValue ≤ (val s.mint).f (bal w.led k)

theorem Backed.but {cfg : Cfg} {val : Valuation} {w : World} (h : Backed cfg val w) (J : Nat → Prop) : BackedBut cfg val J w :=
  fun _ _ k hj hk _ => h _ (List.mem_of_getElem? hj) k hk

theorem BackedBut.all {cfg : Cfg} {val : Valuation} {w : World} {J : Nat → Prop} (h : BackedBut cfg val J w) (hJ : ∀ j, ¬ J j) :
    Backed cfg val w := fun s hs k hk => by
  obtain ⟨j, hj⟩ := List.getElem?_of_mem hs
  exact h j s k hj hk (hJ j)

/-- The LST at index `i` has mint `m`, calculator `prog` and reserves `res`. -/
def SelAt (cfg : Cfg) (w : World) (i : Nat) (m prog res : Pubkey) : Prop :=
  ∃ s, w.ctl.lsts[i]? = some s ∧ s.mint = m ∧ s.solValueCalculator = prog ∧ IsReserves cfg w s res

theorem LstSel.selAt {cfg : Cfg} {w : World} {i : Nat} {m tp res : Pubkey} {s : LstState} (h : LstSel cfg w i m tp res s) :
    SelAt cfg w i m s.solValueCalculator res := by
  obtain ⟨mt, h1, h2⟩ := h.prog
  exact ⟨s, h.get, h.mint_eq, rfl, mt, by rw [h.mint_eq]; exact h1, by rw [h2]; exact h.res_eq⟩

theorem SelAt.led {cfg : Cfg} {w w' : World} {i : Nat} {m prog res : Pubkey} (h : SelAt cfg w i m prog res)
    (hc : w'.ctl.lsts = w.ctl.lsts) (hp : SamePrograms w.led w'.led) : SelAt cfg w' i m prog res := by
  obtain ⟨s, h1, h2, h3, h4⟩ := h
  exact ⟨s, by rw [hc]; exact h1, h2, h3, (hp.isReserves rfl rfl).2 h4⟩

/-- A ledger change that only takes from reserves of the entries `J`. -/
theorem BackedBut.led {cfg : Cfg} {val : Valuation} {J : Nat → Prop} {w w' : World} (h : BackedBut cfg val J w)
    (hu : ∀ m, (val m).Usable) (hc : w'.ctl.lsts = w.ctl.lsts) (hp : SamePrograms w.led w'.led)
    (hb : ∀ (j : Nat) s k, w.ctl.lsts[j]? = some s → IsReserves cfg w s k → ¬ J j → bal w.led k ≤ bal w'.led k) :
    BackedBut cfg val J w' := by
  intro j s k hj hk hJ
  rw [hc] at hj
  have hk' := (hp.isReserves rfl rfl).1 hk
  exact (h j s k hj hk' hJ).trans (AnyCalc.fmono (hu _) (hb j s k hj hk' hJ))

section
variable {cfg : Cfg} {L : RatioLib} {env : Env cfg} {val : Valuation} {J : Nat → Prop} {n : Nat} {w w' : World} {res : Pubkey}
  {c : CalcCpi} {i : Nat} {acc : TokenAcc} {r : Range} {m prog : Pubkey}

theorem SyncRun.value (h : SyncRun env n w res c i w' acc r) (hu : (val m).Usable)
    (hv : env.Values L prog m (val m)) (hp : c.program = prog) (hm : c.mint = m) : r.min = (val m).f (bal w.led res) := by
  have hq := h.ask
  rw [hp] at hq
  have := (hv n w c.metas r w'.led (by simp [CalcCpi.metas, hm])).1 _ hq
  rw [(AnyCalc.is L hu).lstToSol this, bal_some h.tok]
  rfl

theorem SyncRun.selAt (h : SyncRun env n w res c i w' acc r) (hq : env.Quiet) {i' : Nat} {m' prog' res' : Pubkey}
    (hs : SelAt cfg w i' m' prog' res') : SelAt cfg w' i' m' prog' res' := by
  obtain ⟨s, h1, h2, h3, h4⟩ := hs
  obtain ⟨p, s0, f⟩ := ctlSync_ok.1 h.sync
  have hl : w'.led = w.led := h.quiet hq
  have hR : ∀ {t : LstState}, t.mint = s.mint → t.poolReservesBump = s.poolReservesBump → IsReserves cfg w' t res' := fun e1 e2 =>
    (SamePrograms.isReserves (by rw [hl]; exact .refl _) e1 e2).2 h4
  have hlt : i' < w.ctl.lsts.length := (List.getElem?_eq_some_iff.1 h1).1
  by_cases e : i = i'
  · subst e
    have := f.lst; rw [h1] at this; injection this with this; subst this
    exact ⟨{ s with solValue := r.min }, by rw [f.eq]; simp [hlt], h2, h3, hR rfl rfl⟩
  · exact ⟨s, by rw [f.eq]; simp only [List.getElem?_set, if_neg e]; exact h1, h2, h3, hR rfl rfl⟩

theorem SyncRun.rebal (h : SyncRun env n w res c i w' acc r) : w'.ctl.rebal = w.ctl.rebal := by
  obtain ⟨p, s0, f⟩ := ctlSync_ok.1 h.sync
  rw [f.eq]

/-- A sync settles its entry and, if that was backed, does not lower the total. -/
theorem SyncRun.backed (h : SyncRun env n w res c i w' acc r) (hq : env.Quiet) (hu : ∀ m, (val m).Usable)
    (hs : SelAt cfg w i m prog res) (hv : env.Values L prog m (val m)) (hp : c.program = prog) (hm : c.mint = m)
    (hb : BackedBut cfg val J w) :
    BackedBut cfg val (fun j => J j ∧ j ≠ i) w' ∧ (¬ J i → totalOf w ≤ totalOf w') := by
  have hval := h.value (hu m) hv hp hm
  obtain ⟨s, h1, h2, h3, h4⟩ := hs
  obtain ⟨p, s0, f⟩ := ctlSync_ok.1 h.sync
  have := f.lst; rw [h1] at this; injection this with this; subst this
  have hl : w'.led = w.led := h.quiet hq
  have hlt : i < w.ctl.lsts.length := (List.getElem?_eq_some_iff.1 h1).1
  have hR : ∀ {t t' : LstState} {k}, t.mint = t'.mint → t.poolReservesBump = t'.poolReservesBump →
    (IsReserves cfg w' t k ↔ IsReserves cfg w t' k) := fun e1 e2 =>
    SamePrograms.isReserves (by rw [hl]; exact .refl _) e1 e2
  refine ⟨fun j t k hj hk hJ => ?_, fun hJ => ?_⟩
  · rw [f.eq] at hj
    simp only [List.getElem?_set] at hj
    by_cases e : i = j
    · rw [if_pos e, if_pos (by omega)] at hj
      injection hj with hj; subst hj
      have hk' := (hR (t' := s) rfl rfl).1 hk
      obtain ⟨m1, a1, b1⟩ := hk'
      obtain ⟨m2, a2, b2⟩ := h4
      rw [a1] at a2; injection a2 with a2; subst a2
      rw [b1] at b2; injection b2 with b2; subst b2
      rw [hl]; simp only [h2]; exact Nat.le_of_eq hval
    · rw [if_neg e] at hj
      rw [hl]
      exact hb j t k hj ((hR rfl rfl).1 hk) fun hJ' => hJ ⟨hJ', fun e' => e e'.symm⟩
  · have h5 := hb i s res h1 h4 hJ
    have h6 := f.le
    unfold totalOf
    rw [f.eq, f.pool]
    simp only [Option.elim]
    rw [h2] at h5
    omega

end

/-! ### Whole instructions -/

theorem verifySrcDstCpis_sel {ls : List LstState} {sm dm : Pubkey} {suf : List Acc} {sa si di : Nat}
    {c : SrcDstCpis} {src dst : LstState} (h : verifySrcDstCpis ls sm dm suf sa si di = .ok c)
    (hs : ls[si]? = some src) (hd : ls[di]? = some dst) : CalcSel c.src sm src ∧ CalcSel c.dst dm dst := by
  simp only [verifySrcDstCpis, bind_ok, Prod.exists, splitAt_ok, pure_ok] at h
  obtain ⟨x', y', _, cs, hcs, cd, hcd, rfl⟩ := h
  exact ⟨verifyCalcCpi_sel hcs hs, verifyCalcCpi_sel hcd hd⟩

theorem SyncRun.inv {cfg : Cfg} {env : Env cfg} {n : Nat} {w w' : World} {res : Pubkey} {c : CalcCpi} {i : Nat} {acc : TokenAcc}
    {r : Range} (h : SyncRun env n w res c i w' acc r) (hq : env.Quiet) (hi : Inv cfg w) : Inv cfg w' := by
  have hl : w'.led = w.led := h.quiet hq
  obtain ⟨p, s, f⟩ := ctlSync_ok.1 h.sync
  refine ⟨hi.ctl.sync h.sync, by rw [hl]; exact hi.wf, fun t ht => ?_, fun p' hp' => ?_⟩
  · rw [f.eq] at ht
    rcases List.mem_or_eq_of_mem_set ht with ht | rfl
    · rw [hl]; exact hi.accs t ht
    · obtain ⟨m, res, acc, ra, fa, la⟩ := hi.accs s (List.mem_of_getElem? f.lst)
      rw [hl]
      exact ⟨m, res, acc, ra, fa, ⟨la.mint, la.prog, la.res_key, la.acc_key, la.res, la.acc, la.ra_owner, la.fa_owner, la.ra_mint,
        la.fa_mint, la.ra_prog, la.fa_prog⟩⟩
  · rw [f.eq] at hp'
    injection hp' with hp'; subst hp'
    rw [hl]; exact hi.lp p f.pool

/-- Two listed LSTs' reserves are different accounts; a signer's accounts are not reserves. -/
theorem Inv.reserves_ne {cfg : Cfg} {w : World} (hi : Inv cfg w) {i j : Nat} {s t : LstState} {k k' : Pubkey}
    (hs : w.ctl.lsts[i]? = some s) (ht : w.ctl.lsts[j]? = some t) (hk : IsReserves cfg w s k) (hk' : IsReserves cfg w t k')
    (hne : i ≠ j) : k ≠ k' := by
  rintro rfl
  obtain ⟨a, ha, _, hm⟩ := lstAccounts_unique hi hs hk
  obtain ⟨b, hb, _, hm'⟩ := lstAccounts_unique hi ht hk'
  rw [ha] at hb; injection hb with hb; subst hb
  exact hne (mint_index hi.ctl.mints hs ht (hm.symm.trans hm'))

theorem Inv.reserves_ne_signer {cfg : Cfg} {w : World} (hi : Inv cfg w) {j : Nat} {t : LstState} {k u : Pubkey} {a : TokenAcc}
    (ht : w.ctl.lsts[j]? = some t) (hk : IsReserves cfg w t k) (hu : w.led.tok u = some a) (ho : a.owner ≠ cfg.poolState) : k ≠ u := by
  rintro rfl
  obtain ⟨b, hb, hb', _⟩ := lstAccounts_unique hi ht hk
  rw [hu] at hb; injection hb with hb; subst hb
  exact ho hb'

theorem signer_ne_pool {cfg : Cfg} {accs : List Acc} (hs : signersOk cfg accs) {a : Acc} (ha : a ∈ accs) (hsig : a.signer = true) :
    a.key ≠ cfg.poolState := (hs a ha hsig).1

/-- Nothing taken from reserves, nothing revalued. -/
theorem Backed.frame {cfg : Cfg} {val : Valuation} {w w' : World} (hb : Backed cfg val w) (hi : Inv cfg w) (hu : ∀ m, (val m).Usable)
    (hl : ∀ s' ∈ w'.ctl.lsts, s'.solValue = 0 ∨ ∃ s ∈ w.ctl.lsts, s.mint = s'.mint ∧ s.poolReservesBump = s'.poolReservesBump ∧
      s.solValue = s'.solValue)
    (hm : ∀ k m, w.led.mints k = some m → ∃ m', w'.led.mints k = some m' ∧ m'.program = m.program)
    (ht : ∀ k a, w.led.tok k = some a → a.owner = cfg.poolState → bal w.led k ≤ bal w'.led k) : Backed cfg val w' := by
  intro s' hs' k hk
  rcases hl s' hs' with h0 | ⟨s, hs, e1, e2, e3⟩
  · omega
  · obtain ⟨m', h1, h2⟩ := hk
    obtain ⟨m, res, acc, ra, fa, la⟩ := hi.accs s hs
    obtain ⟨m'', h3, h4⟩ := hm _ _ la.mint
    rw [e1, h1] at h3; injection h3 with h3; subst h3
    have hk' : IsReserves cfg w s k := ⟨m, la.mint, by rw [e1, e2, ← h4]; exact h2⟩
    obtain ⟨j, hj⟩ := List.getElem?_of_mem hs
    obtain ⟨a, ha, hao, _⟩ := lstAccounts_unique hi hj hk'
    rw [← e3, ← e1]
    exact (hb s hs k hk').trans (AnyCalc.fmono (hu _) (ht k a ha hao))

section
variable {cfg : Cfg} {L : RatioLib} {env : Env cfg} {val : Valuation} {tx : TxInfo} {w w' : World} {accs : List Acc}

/-- The calculators value the LSTs listed in `w` by `val`. -/
def Follows (L : RatioLib) (env : Env cfg) (val : Valuation) (w : World) : Prop :=
  ∀ s ∈ w.ctl.lsts, env.Values L s.solValueCalculator s.mint (val s.mint)

theorem Follows.sel (hf : Follows L env val w) {i : Nat} {m tp res : Pubkey} {s : LstState} (h : LstSel cfg w i m tp res s) :
    env.Values L s.solValueCalculator m (val m) := by
  have := hf s (List.mem_of_getElem? h.get)
  rwa [h.mint_eq] at this

theorem syncIx_backed {i : Nat} (hq : env.Quiet) (hu : ∀ m, (val m).Usable) (hf : Follows L env val w) (hb : Backed cfg val w)
    (r : SyncIxRun env w accs i w') : Backed cfg val w' ∧ totalOf w ≤ totalOf w' := by
  have h := r.run.backed (J := fun _ => False) hq hu r.sel.selAt (hf.sel r.sel) r.calc_sel.program r.calc_sel.mint_eq (hb.but _)
  exact ⟨h.1.all fun j hj => hj.1, h.2 id⟩

theorem SwapRun.backed {sa da si di x y : Nat} (r : SwapRun L env w accs sa da si di x y w') (hi : Inv cfg w)
    (hs : signersOk cfg accs) (hq : env.Quiet) (h5 : r.l5 = r.w2.led) (hu : ∀ m, (val m).Usable) (hf : Follows L env val w)
    (hb : Backed cfg val w) : Backed cfg val w' ∧ totalOf w ≤ totalOf w' := by
  have hsel := verifySwapCpis_sel r.ver.cpis r.ver.srcSel.get r.ver.dstSel.get
  have i1 := r.sync0.inv hq hi
  have i2 := r.sync1.inv hq i1
  have ss := r.ver.srcSel.selAt
  have ds := r.ver.dstSel.selAt
  have vs := hf.sel r.ver.srcSel
  have vd := hf.sel r.ver.dstSel
  have b1 := r.sync0.backed (J := fun _ => False) hq hu ss vs hsel.1.program hsel.1.mint_eq (hb.but _)
  have ss1 := r.sync0.selAt hq ss
  have ds1 := r.sync0.selAt hq ds
  have b2 := r.sync1.backed hq hu ds1 vd hsel.2.1.program hsel.2.1.mint_eq b1.1
  have ss2 := r.sync1.selAt hq ss1
  have ds2 := r.sync1.selAt hq ds1
  have hled : ({ r.w2 with led := r.l5 } : World) = r.w2 := by rw [h5]
  have fin := r.fin
  rw [hled] at fin
  obtain ⟨m1, a1, b1', f1⟩ := transfer_ok.1 fin.t1
  have hprog : SamePrograms r.w2.led fin.l3 := SamePrograms.of_eq
    ((transfer_mints fin.t3).trans ((transfer_mints fin.t2).trans (transfer_mints fin.t1)))
  have hsig : a1.owner ≠ cfg.poolState := by
    rw [f1.owner]
    have hl := SwapAccs.load_all r.ver.load
    exact signer_ne_pool hs ((congrArg (r.a.signer ∈ ·) hl).mpr List.mem_cons_self) r.ver.signer
  obtain ⟨dE, d1, d2, d3, d4⟩ := ds2
  have b3 : BackedBut cfg val (fun j => j = di) { r.w2 with led := fin.l3 } := by
    refine BackedBut.led (w := r.w2) (fun j s k hj hk _ => b2.1 j s k hj hk (by simp)) hu rfl hprog fun j s k hj hk hne => ?_
    have n1 := i2.reserves_ne_signer hj hk f1.src hsig
    have n2 : k ≠ r.a.dstPoolReserves.key := i2.reserves_ne hj d1 hk d4 hne
    exact (transfer_ge fin.t1 n1).trans ((transfer_ge fin.t2 n2).trans (transfer_ge fin.t3 n2))
  have ss3 : SelAt cfg { r.w2 with led := fin.l3 } _ _ _ _ := ss2.led rfl hprog
  have ds3 : SelAt cfg { r.w2 with led := fin.l3 } _ _ _ _ := SelAt.led ⟨dE, d1, d2, d3, d4⟩ rfl hprog
  have b4 := fin.sync5.backed hq hu ss3 vs hsel.1.program hsel.1.mint_eq b3
  have b5 := fin.sync6.backed hq hu (fin.sync5.selAt hq ds3) vd hsel.2.1.program hsel.2.1.mint_eq b4.1
  refine ⟨b5.1.all fun j hj => hj.2 hj.1.1, ?_⟩
  have t1 := b1.2 id
  have t2 := b2.2 (fun h => h.1)
  have t3 := fin.noLoss
  have e2 : totalOf r.w2 = r.p2.totalSolValue := by unfold totalOf; rw [r.pool2]; rfl
  have e3 : totalOf w' = fin.p'.totalSolValue := by unfold totalOf; rw [fin.pool']; rfl
  omega

theorem totalOf_pool {p : PoolState} (h : w.ctl.pool = some p) : totalOf w = p.totalSolValue := by unfold totalOf; rw [h]; rfl

theorem AddLiqRun.backed {args : AddLiquidityArgs} (r : AddLiqRun L env w accs args w') (hi : Inv cfg w) (hs : signersOk cfg accs)
    (hq : env.Quiet) (hu : ∀ m, (val m).Usable) (hf : Follows L env val w) (hb : Backed cfg val w) : Backed cfg val w' := by
  have hsel := verifyLpCpis_sel r.ver.cpis r.ver.sel.get
  have i1 := r.sync0.inv hq hi
  have ss := r.ver.sel.selAt
  have vs := hf.sel r.ver.sel
  have b1 := r.sync0.backed (J := fun _ => False) hq hu ss vs hsel.1.program hsel.1.mint_eq (hb.but _)
  have ss1 := r.sync0.selAt hq ss
  have h3 : r.l3 = r.w1.led := (hq.priceF r.ask2).trans (hq.calcF r.ask1)
  have t1 := r.t1
  rw [h3] at t1
  obtain ⟨m1, a1, b1', f1⟩ := transfer_ok.1 t1
  have hprog : SamePrograms r.w1.led r.l6 :=
    (SamePrograms.of_eq ((transfer_mints r.t2).trans (transfer_mints t1))).trans (mintTo_programs r.t3)
  have hsig : a1.owner ≠ cfg.poolState := by
    rw [f1.owner]
    have hl := LiqAccs.load_all r.ver.load
    exact signer_ne_pool hs ((congrArg (r.a.signer ∈ ·) hl).mpr List.mem_cons_self) r.ver.signer
  have b2 : BackedBut cfg val (fun _ => False) { r.w1 with led := r.l6 } := by
    refine BackedBut.led (w := r.w1) (fun j s k hj hk _ => b1.1 j s k hj hk (by simp)) hu rfl hprog fun j s k hj hk _ => ?_
    have n1 := i1.reserves_ne_signer hj hk f1.src hsig
    exact (transfer_ge t1 n1).trans ((transfer_ge r.t2 n1).trans (mintTo_ge r.t3 k))
  have b3 := r.sync3.backed hq hu (ss1.led rfl hprog) vs hsel.1.program hsel.1.mint_eq b2
  exact b3.1.all fun j hj => hj.1

theorem RemLiqRun.backed {args : RemoveLiquidityArgs} (r : RemLiqRun L env w accs args w') (hi : Inv cfg w) (hs : signersOk cfg accs)
    (hq : env.Quiet) (hu : ∀ m, (val m).Usable) (hf : Follows L env val w) (hb : Backed cfg val w) : Backed cfg val w' := by
  have hsel := verifyLpCpis_sel r.ver.cpis r.ver.sel.get
  have i1 := r.sync0.inv hq hi
  have ss := r.ver.sel.selAt
  have vs := hf.sel r.ver.sel
  have b1 := r.sync0.backed (J := fun _ => False) hq hu ss vs hsel.1.program hsel.1.mint_eq (hb.but _)
  have ss1 := r.sync0.selAt hq ss
  have h3 : r.l3 = r.w1.led := (hq.calcF r.ask2).trans (hq.priceF r.ask1)
  have t1 := r.t1
  rw [h3] at t1
  obtain ⟨m1, a1, f1⟩ := burn_ok.1 t1
  have hprog : SamePrograms r.w1.led r.l6 :=
    (burn_programs t1).trans (SamePrograms.of_eq ((transfer_mints r.t3).trans (transfer_mints r.t2)))
  have hsig : a1.owner ≠ cfg.poolState := by
    rw [f1.owner]
    have hl := LiqAccs.load_all r.ver.load
    exact signer_ne_pool hs ((congrArg (r.a.signer ∈ ·) hl).mpr List.mem_cons_self) r.ver.signer
  obtain ⟨dE, d1, d2, d3, d4⟩ := ss1
  have b2 : BackedBut cfg val (fun j => j = args.lstIndex) { r.w1 with led := r.l6 } := by
    refine BackedBut.led (w := r.w1) (fun j s k hj hk _ => b1.1 j s k hj hk (by simp)) hu rfl hprog fun j s k hj hk hne => ?_
    have n1 := i1.reserves_ne_signer hj hk f1.hsrc hsig
    have n2 : k ≠ r.a.poolReserves.key := i1.reserves_ne hj d1 hk d4 hne
    exact (burn_ge t1 n1).trans ((transfer_ge r.t2 n2).trans (transfer_ge r.t3 n2))
  have b3 := r.sync3.backed hq hu (SelAt.led ⟨dE, d1, d2, d3, d4⟩ rfl hprog) vs hsel.1.program hsel.1.mint_eq b2
  exact b3.1.all fun j hj => hj.2 hj.1

theorem StartRun.backed {args : StartRebalanceArgs} (r : StartRun env tx w accs args w') (hi : Inv cfg w)
    (hq : env.Quiet) (hu : ∀ m, (val m).Usable) (hf : Follows L env val w) (hb : Backed cfg val w) :
    Backed cfg val w' ∧ totalOf w ≤ r.p2.totalSolValue := by
  have hsel := verifySrcDstCpis_sel r.cpis r.srcSel.get r.dstSel.get
  have i1 := r.sync0.inv hq hi
  have i2 := r.sync1.inv hq i1
  have ss := r.srcSel.selAt
  have ds := r.dstSel.selAt
  have vs := hf.sel r.srcSel
  have vd := hf.sel r.dstSel
  have b1 := r.sync0.backed (J := fun _ => False) hq hu ss vs hsel.1.program hsel.1.mint_eq (hb.but _)
  have ss1 := r.sync0.selAt hq ss
  have ds1 := r.sync0.selAt hq ds
  have b2 := r.sync1.backed hq hu ds1 vd hsel.2.program hsel.2.mint_eq b1.1
  have ss2 := r.sync1.selAt hq ss1
  have hprog : SamePrograms r.w2.led r.l3 := SamePrograms.of_eq (transfer_mints r.t1)
  obtain ⟨dE, d1, d2, d3, d4⟩ := ss2
  have b3 : BackedBut cfg val (fun j => j = args.srcLstIndex) { r.w2 with led := r.l3 } := by
    refine BackedBut.led (w := r.w2) (fun j s k hj hk _ => b2.1 j s k hj hk (by simp)) hu rfl hprog fun j s k hj hk hne => ?_
    exact transfer_ge r.t1 (i2.reserves_ne hj d1 hk d4 hne)
  have b4 := r.sync2.backed hq hu (SelAt.led ⟨dE, d1, d2, d3, d4⟩ rfl hprog) vs hsel.1.program hsel.1.mint_eq b3
  have b5 : Backed cfg val r.w3 := b4.1.all fun j hj => hj.2 hj.1
  refine ⟨fun s hs k hk => ?_, ?_⟩
  · rw [r.eq] at hs hk ⊢
    exact b5 s hs k hk
  · have t1 := b1.2 id
    have t2 := b2.2 (fun h => h.1)
    rw [totalOf_pool r.pool2] at t2
    omega

theorem EndRun.backed (r : EndRun env w accs w') (hq : env.Quiet) (hu : ∀ m, (val m).Usable)
    (hf : Follows L env val w) (hb : Backed cfg val w) : Backed cfg val w' := by
  have hsel := verifyCalcCpi_sel r.cpi r.sel.get
  have b1 := r.sync0.backed (J := fun _ => False) hq hu r.sel.selAt (hf.sel r.sel) hsel.program hsel.mint_eq
    (fun j s k hj hk _ => hb s (List.mem_of_getElem? hj) k hk)
  have b2 : Backed cfg val r.w1 := b1.1.all fun j hj => hj.1
  intro s hs k hk
  rw [r.eq] at hs hk ⊢
  exact b2 s hs k hk

theorem SetCalcRun.backed {i : Nat} (r : SetCalcRun env w accs i w') (hq : env.Quiet) (hu : ∀ m, (val m).Usable)
    (hf : Follows L env val w') (hb : Backed cfg val w) : Backed cfg val w' ∧ totalOf w ≤ totalOf w' := by
  have hlt : i < w.ctl.lsts.length := (List.getElem?_eq_some_iff.1 r.sel.get).1
  have ss : SelAt cfg (w.setLsts (w.ctl.lsts.set i { r.s with solValueCalculator := r.c.program })) i r.a.lstMint.key r.c.program
      r.a.poolReserves.key := by
    obtain ⟨s, h1, h2, h3, h4⟩ := r.sel.selAt
    have := r.sel.get; rw [h1] at this; injection this with this
    refine ⟨{ r.s with solValueCalculator := r.c.program }, by simp [World.setLsts, hlt], r.sel.mint_eq, rfl, ?_⟩
    rw [← this]
    exact h4
  obtain ⟨s', g1, g2, g3, g4⟩ := r.run.selAt hq ss
  have hv := hf s' (List.mem_of_getElem? g1)
  rw [g3, g2] at hv
  have b0 : BackedBut cfg val (fun _ => False) (w.setLsts (w.ctl.lsts.set i { r.s with solValueCalculator := r.c.program })) := by
    intro j s k hj hk _
    simp only [World.setLsts] at hj
    rw [List.getElem?_set] at hj
    by_cases e : i = j
    · rw [if_pos e, if_pos (by omega)] at hj
      injection hj with hj; subst hj
      exact hb r.s (List.mem_of_getElem? r.sel.get) k hk
    · rw [if_neg e] at hj
      exact hb s (List.mem_of_getElem? hj) k hk
  have b1 := r.run.backed hq hu ss hv rfl (by obtain ⟨a, t, _, e⟩ := ofSuffix_ok.1 r.cpi; rw [e]) b0
  exact ⟨b1.1.all fun j hj => hj.1, b1.2 id⟩

/-- The total that counts: during a rebalance the recorded total at its start. -/
def refTotal (w : World) : Nat := w.ctl.rebal.elim (totalOf w) RebalanceRecord.oldTotalSolValue

theorem refTotal_none (h : w.ctl.rebal = none) : refTotal w = totalOf w := by unfold refTotal; rw [h]; rfl

/-- `Event.loss` of an instruction. -/
def ixLoss (val : Valuation) (w : World) : Ix → Nat
  | .addLiquidity a => (w.ctl.lsts[a.lstIndex]?).elim 0 fun s => (val s.mint).depositSlack
  | .removeLiquidity a => (w.ctl.lsts[a.lstIndex]?).elim 0 fun s => (val s.mint).redeemSlack
  | _ => 0

theorem SyncedTotal.ge {i : Nat} {s : LstState} {T : Nat} (hs : w.ctl.lsts[i]? = some s) (hu : (val s.mint).Usable)
    (hb : Backed cfg val w) (h : SyncedTotal cfg L w i (val s.mint) T) : totalOf w ≤ T := by
  obtain ⟨p, s', k, r, hp, hs', hk, hr, he⟩ := h
  rw [hs] at hs'; injection hs' with hs'; subst hs'
  have h1 := hb s (List.mem_of_getElem? hs) k hk
  have h2 : r.min = (val s.mint).f (bal w.led k) := by rw [(AnyCalc.is L hu).lstToSol hr]; rfl
  rw [totalOf_pool hp]
  omega

theorem lpSupply_eq {p p' : PoolState} (hp : w.ctl.pool = some p) (hp' : w'.ctl.pool = some p') (hm : p'.lpTokenMint = p.lpTokenMint)
    (hs : supplyOf w'.led p.lpTokenMint = supplyOf w.led p.lpTokenMint) : lpSupply w' = lpSupply w := by
  unfold lpSupply
  rw [hp, hp']
  simp only [Option.elim]
  rw [hm, hs]

theorem ix_supply {ix : Ix} (hq : env.Quiet) (hS : lpSupply w ≠ 0) (h : processIx cfg L env tx w accs ix = .ok w')
    (h1 : ∀ a, ix ≠ .addLiquidity a) (h2 : ∀ a, ix ≠ .removeLiquidity a) : lpSupply w' = lpSupply w := by
  have hc := processIx_ctl h
  have hne : ix ≠ .initialize := by
    rintro rfl
    obtain ⟨k, hn, _⟩ := hc
    unfold lpSupply at hS; rw [hn] at hS; exact hS rfl
  obtain ⟨p, p', hp, hp', hm⟩ := hc.lpMint hne
  refine lpSupply_eq hp hp' hm ?_
  by_contra hx
  rcases ((C44_conserved hq h).2.1 _ hx).1 with ⟨a, e⟩ | ⟨a, e⟩
  · exact h1 a e
  · exact h2 a e

theorem Active.rebal {p : PoolState} (hi : Inv cfg w) (ha : w.ctl.Active p) : w.ctl.rebal = none := by
  by_contra hx
  exact (hi.ctl.rebal p ha.1).2 hx ha.2.1

/-- Instructions that neither take from reserves nor revalue. -/
theorem ix_frame {ix : Ix} (hi : Inv cfg w) (hs : signersOk cfg accs) (hu : ∀ m, (val m).Usable) (hb : Backed cfg val w)
    (h : processIx cfg L env tx w accs ix = .ok w') (hm : ¬ ix.movesReserves)
    (hl : ∀ s' ∈ w'.ctl.lsts, s'.solValue = 0 ∨ ∃ s ∈ w.ctl.lsts, s.mint = s'.mint ∧ s.poolReservesBump = s'.poolReservesBump ∧
      s.solValue = s'.solValue) : Backed cfg val w' := by
  obtain ⟨ops, ht, _⟩ := processIx_trace h
  refine hb.frame hi hu hl (fun k m hk => ?_) fun k a hk ho => ?_
  · obtain ⟨m', h1, h2, _⟩ := TraceE.mint ht hk
    exact ⟨m', h1, h2⟩
  · rw [bal_some hk]
    rcases ctrl_account_ix hs h hk (.inl ho) with ⟨n, h1, h2⟩ | ⟨_, h0, _⟩
    · rw [bal_some h1]
      by_contra hx
      rcases h2 (by simpa using hx) with ⟨_, h3⟩ | ⟨h3, _⟩
      · exact hm h3
      · exact cfg.pool_ne_fee (ho.symm.trans h3)
    · omega

theorem mem_set_frame {ls : List LstState} {i : Nat} {s t : LstState} (hs : ls[i]? = some s) (h1 : t.mint = s.mint)
    (h2 : t.poolReservesBump = s.poolReservesBump) (h3 : t.solValue = s.solValue) : ∀ s' ∈ ls.set i t,
    s'.solValue = 0 ∨ ∃ s ∈ ls, s.mint = s'.mint ∧ s.poolReservesBump = s'.poolReservesBump ∧ s.solValue = s'.solValue := by
  intro s' hm
  rcases List.mem_or_eq_of_mem_set hm with hm | rfl
  · exact .inr ⟨s', hm, rfl, rfl, rfl⟩
  · exact .inr ⟨s, List.mem_of_getElem? hs, h1.symm, h2.symm, h3.symm⟩

/-- A successful instruction keeps the pool backed and lowers the value of an LP token by at most the rounding loss. -/
theorem ix_price {ix : Ix} (hi : Inv cfg w) (hs : signersOk cfg accs) (hq : env.Quiet) (hu : ∀ m, (val m).Usable)
    (hf : Follows L env val w) (hf' : Follows L env val w') (hb : Backed cfg val w)
    (h : processIx cfg L env tx w accs ix = .ok w') :
    Backed cfg val w' ∧ (lpSupply w ≠ 0 → refTotal w * lpSupply w' ≤ (refTotal w' + ixLoss val w ix) * lpSupply w) := by
  have hc := processIx_ctl h
  -- same supply, total not lower
  have up : (∀ a, ix ≠ .addLiquidity a) → (∀ a, ix ≠ .removeLiquidity a) → refTotal w ≤ refTotal w' → lpSupply w ≠ 0 →
      refTotal w * lpSupply w' ≤ (refTotal w' + ixLoss val w ix) * lpSupply w := by
    intro h1 h2 h3 hS
    rw [ix_supply hq hS h h1 h2]
    exact Nat.mul_le_mul_right _ (by omega)
  -- syncs keep the record
  have sy : ∀ {p : PoolState}, w.ctl.Active p → Syncs w.ctl w'.ctl → refTotal w = totalOf w ∧ refTotal w' = totalOf w' := by
    intro p ha hsy
    have hr := Active.rebal hi ha
    exact ⟨refTotal_none hr, refTotal_none (hsy.onlyValues.rebal.trans hr)⟩
  have same : ∀ s' ∈ w.ctl.lsts, s'.solValue = 0 ∨ ∃ s ∈ w.ctl.lsts, s.mint = s'.mint ∧ s.poolReservesBump = s'.poolReservesBump ∧
      s.solValue = s'.solValue := fun s' hs' => .inr ⟨s', hs', rfl, rfl, rfl⟩
  -- the pool's record changes in other fields
  have fr : ¬ ix.movesReserves → w'.ctl.lsts = w.ctl.lsts → (∀ a, ix ≠ .addLiquidity a) → (∀ a, ix ≠ .removeLiquidity a) →
      refTotal w' = refTotal w →
      Backed cfg val w' ∧ (lpSupply w ≠ 0 → refTotal w * lpSupply w' ≤ (refTotal w' + ixLoss val w ix) * lpSupply w) :=
    fun h1 h2 h3 h4 h5 => ⟨ix_frame hi hs hu hb h h1 (by rw [h2]; exact same), up h3 h4 (Nat.le_of_eq h5.symm)⟩
  have rp : ∀ {p q : PoolState}, w.ctl.pool = some p → w'.ctl = { w.ctl with pool := some q } →
      q.totalSolValue = p.totalSolValue → refTotal w' = refTotal w := by
    intro p q hp e hq
    unfold refTotal totalOf
    rw [e, hp]
    simp only [Option.elim, hq]
  cases ix with
  | syncSolValue i =>
    obtain ⟨p, ha, hsy⟩ := hc
    obtain ⟨r⟩ := processSync_inv h
    have := syncIx_backed hq hu hf hb r
    have e := sy ha hsy
    exact ⟨this.1, up (by simp) (by simp) (by omega)⟩
  | swapExactIn args =>
    obtain ⟨p, s, ha, _, _, hsy⟩ := hc
    obtain ⟨out, ⟨r⟩⟩ := processSwapExactIn_inv h
    have h3 : r.l3 = r.w2.led := hq.calcF r.ask2
    have h4 : r.l4 = r.w2.led := (hq.priceF r.ask3).trans h3
    have := r.toSwapRun.backed hi hs hq ((hq.calcF r.ask4).trans h4) hu hf hb
    have e := sy ha hsy
    exact ⟨this.1, up (by simp) (by simp) (by omega)⟩
  | swapExactOut args =>
    obtain ⟨p, s, ha, _, _, hsy⟩ := hc
    obtain ⟨out, ⟨r⟩⟩ := processSwapExactOut_inv h
    have h3 : r.l3 = r.w2.led := hq.calcF r.ask2
    have h4 : r.l4 = r.w2.led := (hq.priceF r.ask3).trans h3
    have := r.toSwapRun.backed hi hs hq ((hq.calcF r.ask4).trans h4) hu hf hb
    have e := sy ha hsy
    exact ⟨this.1, up (by simp) (by simp) (by omega)⟩
  | addLiquidity args =>
    obtain ⟨p, s, ha, hls, _, hsy⟩ := hc
    obtain ⟨r⟩ := processAddLiquidity_inv h
    have e := sy ha hsy
    have hv : ValuedBy L env w args.lstIndex (val s.mint) := fun s' hs' => by
      rw [hls] at hs'; injection hs' with hs'; subst hs'; exact hf s (List.mem_of_getElem? hls)
    obtain ⟨p', s', m, res, userLst, userLp, T, t', u, lp, toRes, toFee, n⟩ := deposit_nums hi hs hq hv (hu _) h
    have hd := (n.dilution (n.gain (hu _))).1
    have hT := SyncedTotal.ge hls (hu _) hb n.synced
    refine ⟨r.backed hi hs hq hu hf hb, fun hS => ?_⟩
    rw [e.1, e.2]
    simp only [ixLoss, hls, Option.elim]
    exact (Nat.mul_le_mul_right _ hT).trans (hd hS)
  | removeLiquidity args =>
    obtain ⟨p, ha, hsy⟩ := hc
    obtain ⟨r⟩ := processRemoveLiquidity_inv h
    have hls := r.ver.sel.get
    have e := sy ha hsy
    have hv : ValuedBy L env w args.lstIndex (val r.s.mint) := fun s' hs' => by
      rw [hls] at hs'; injection hs' with hs'; subst hs'; exact hf _ (List.mem_of_getElem? hls)
    obtain ⟨T, h1, _, h2⟩ := redeem_rate hi hs hq hv (hu _) h
    have hT := SyncedTotal.ge hls (hu _) hb h1
    refine ⟨r.backed hi hs hq hu hf hb, fun hS => ?_⟩
    rw [e.1, e.2]
    simp only [ixLoss, hls, Option.elim]
    exact (Nat.mul_le_mul_right _ hT).trans h2
  | disableLstInput i =>
    obtain ⟨p, s, _, _, hls, e⟩ := hc
    refine ⟨ix_frame hi hs hu hb h id (by rw [e]; exact mem_set_frame hls rfl rfl rfl), up (by simp) (by simp) ?_⟩
    unfold refTotal totalOf; rw [e]
  | enableLstInput i =>
    obtain ⟨p, s, _, _, hls, e⟩ := hc
    refine ⟨ix_frame hi hs hu hb h id (by rw [e]; exact mem_set_frame hls rfl rfl rfl), up (by simp) (by simp) ?_⟩
    unfold refTotal totalOf; rw [e]
  | addLst =>
    obtain ⟨p, s, _, _, _, h0, _, _, _, _, e⟩ := hc
    refine ⟨ix_frame hi hs hu hb h id ?_, up (by simp) (by simp) ?_⟩
    · rw [e]
      intro s' hs'
      rcases List.mem_append.1 hs' with hs' | hs'
      · exact same s' hs'
      · rw [List.mem_singleton.1 hs']; exact .inl h0
    · unfold refTotal totalOf; rw [e]
  | removeLst i =>
    obtain ⟨p, s, _, _, _, _, e⟩ := hc
    refine ⟨ix_frame hi hs hu hb h id ?_, up (by simp) (by simp) ?_⟩
    · rw [e]; exact fun s' hs' => same s' (List.mem_of_mem_eraseIdx hs')
    · unfold refTotal totalOf; rw [e]
  | setSolValueCalculator i =>
    obtain ⟨p, s, prog, ha, _, _, _, hsy⟩ := hc
    obtain ⟨r⟩ := processSetSolValueCalculator_inv h
    have := r.backed hq hu hf' hb
    have hr := Active.rebal hi ha
    have e1 := refTotal_none hr
    have e2 := refTotal_none (w := w') (hsy.onlyValues.rebal.trans hr)
    exact ⟨this.1, up (by simp) (by simp) (by omega)⟩
  | setAdmin => obtain ⟨p, k, hp, _, e⟩ := hc; exact fr id (by rw [e]) (by simp) (by simp) (rp hp e rfl)
  | setProtocolFee args => obtain ⟨p, hp, _, _, _, e⟩ := hc; exact fr id (by rw [e]) (by simp) (by simp) (rp hp.1 e rfl)
  | setProtocolFeeBeneficiary => obtain ⟨p, k, hp, _, e⟩ := hc; exact fr id (by rw [e]) (by simp) (by simp) (rp hp.1 e rfl)
  | setPricingProgram => obtain ⟨p, k, hp, _, _, e⟩ := hc; exact fr id (by rw [e]) (by simp) (by simp) (rp hp.1 e rfl)
  | withdrawProtocolFees n =>
    obtain ⟨p, _, _, e⟩ := hc
    exact fr id (by rw [e]) (by simp) (by simp) (by unfold refTotal totalOf; rw [e])
  | addDisablePoolAuthority =>
    obtain ⟨p, k, _, _, _, e⟩ := hc
    exact fr id (by rw [e]) (by simp) (by simp) (by unfold refTotal totalOf; rw [e])
  | removeDisablePoolAuthority i =>
    obtain ⟨p, k, _, _, _, e⟩ := hc
    exact fr id (by rw [e]) (by simp) (by simp) (by unfold refTotal totalOf; rw [e])
  | disablePool => obtain ⟨p, hp, _, e⟩ := hc; exact fr id (by rw [e]) (by simp) (by simp) (rp hp.1 e rfl)
  | enablePool => obtain ⟨p, hp, _, _, e⟩ := hc; exact fr id (by rw [e]) (by simp) (by simp) (rp hp e rfl)
  | startRebalance args =>
    obtain ⟨p, s, c2, c3, p2, p3, dm, ha, _⟩ := hc
    obtain ⟨r⟩ := processStartRebalance_inv h
    have := r.backed hi hq hu hf hb
    refine ⟨this.1, up (by simp) (by simp) ?_⟩
    rw [refTotal_none (Active.rebal hi ha)]
    refine this.2.trans (Nat.le_of_eq ?_)
    have e : w'.ctl.rebal = some ⟨r.p2.totalSolValue, args.dstLstIndex⟩ := congrArg (fun w : World => w.ctl.rebal) r.eq
    unfold refTotal; rw [e]; rfl
  | endRebalance =>
    obtain ⟨r⟩ := processEndRebalance_inv h
    refine ⟨r.backed hq hu hf hb, up (by simp) (by simp) ?_⟩
    have e1 : refTotal w = r.rr.oldTotalSolValue := by unfold refTotal; rw [r.record]; rfl
    have e : w'.ctl.rebal = none := congrArg (fun w : World => w.ctl.rebal) r.eq
    have e' : w'.ctl.pool = some r.p1 := (congrArg (fun w : World => w.ctl.pool) r.eq).trans r.pool1
    have e2 : refTotal w' = r.p1.totalSolValue := by rw [refTotal_none e, totalOf_pool e']
    rw [e1, e2]; exact r.noLoss
  | setRebalanceAuthority => obtain ⟨p, k, hp, _, e⟩ := hc; exact fr id (by rw [e]) (by simp) (by simp) (rp hp.1 e rfl)
  | «initialize» =>
    obtain ⟨k, hn, _, e⟩ := hc
    refine ⟨fun s hs => ?_, fun hS => ?_⟩
    · rw [e] at hs
      rw [(hi.ctl.noPool hn).1] at hs
      cases hs
    · unfold lpSupply at hS; rw [hn] at hS; exact absurd rfl hS

theorem Backed.up {val' : Valuation} (hb : Backed cfg val w) (h : ∀ m x, (val m).f x ≤ (val' m).f x) : Backed cfg val' w :=
  fun s hs k hk => (hb s hs k hk).trans (h _ _)

theorem event_price {e : Event cfg} (hi : Inv cfg e.pre) (hr : e.act.run L e.tx e.pre = .ok e.post) (hf : e.Follows L val)
    (hb : Backed cfg val e.pre) :
    Backed cfg val e.post ∧
    (lpSupply e.pre ≠ 0 → refTotal e.pre * lpSupply e.post ≤ (refTotal e.post + e.loss val) * lpSupply e.pre) := by
  cases ha : e.act with
  | ext f ok =>
    rw [ha] at hr
    rcases Action.run_ok hr with ⟨hc, hx⟩ | ⟨c, ix, h, _⟩
    · refine ⟨hb.frame hi hf.1 (fun s' hs' => .inr ⟨s', by rw [hc] at hs'; exact hs', rfl, rfl, rfl⟩) (fun k m hk => ?_)
        fun k a hk ho => ?_, fun hS => ?_⟩
      · obtain ⟨m', h1, h2, _⟩ := hx.mint k m hk; exact ⟨m', h1, h2⟩
      · obtain ⟨n, h1, h2⟩ := hx.tok k a hk (.inl ho)
        rw [bal_some hk, bal_some h2]; exact h1
      · have e1 : refTotal e.post = refTotal e.pre := by unfold refTotal totalOf; rw [hc]
        have e2 : lpSupply e.post ≤ lpSupply e.pre := by
          unfold lpSupply
          rw [hc]
          cases hp : e.pre.ctl.pool with
          | none => exact Nat.le_refl _
          | some p =>
            obtain ⟨m, hm, _, _, hma, _⟩ := hi.lp p hp
            obtain ⟨m', hm', _⟩ := hx.mint _ _ hm
            simp only [Option.elim, supplyOf, hm, hm']
            exact (hx.mintAuth _ _ _ hm hm' hma).2
        rw [e1]
        exact Nat.mul_le_mul (by omega) e2
    · cases h
  | call c =>
    rw [ha] at hr
    obtain ⟨h1, ix, h2, h3⟩ := Call.run_ok hr
    obtain ⟨hq, hv⟩ := hf.2 c ha
    have hloss : e.loss val = ixLoss val e.pre ix := by
      unfold Event.loss ixLoss
      rw [ha]
      simp only [h2]
      cases ix <;> rfl
    rw [hloss]
    exact ix_price hi h1 hq hf.1 (fun s hs => hv s (.inl hs)) (fun s hs => hv s (.inr hs)) hb h3

theorem rising_backed {val' : Valuation} {es : List (Event cfg)} {q : Rat} (hc : Chain w es w')
    (hrun : ∀ e ∈ es, e.act.run L e.tx e.pre = .ok e.post) (hr : Rising L val es val' q) (hi : Inv cfg w) (hb : Backed cfg val w) :
    Backed cfg val' w' := by
  induction hr generalizing w with
  | nil => cases hc; exact hb
  | @cons val val₁ val' e es q up follows rest ih =>
    cases hc with
    | cons hc =>
      have hre := hrun e List.mem_cons_self
      exact ih hc (fun e he => hrun e (List.mem_cons_of_mem _ he)) (hi.action hre) (event_price hi hre follows (hb.up up)).1

theorem div_step {a b c : Nat} {S S' : Nat} (hS : S ≠ 0) (hS' : S' ≠ 0) (h : a * S' ≤ (b + c) * S) :
    (a : Rat) / S ≤ b / S' + c / S' := by
  have h0 : (0 : Rat) < S := by exact_mod_cast Nat.pos_of_ne_zero hS
  have h0' : (0 : Rat) < S' := by exact_mod_cast Nat.pos_of_ne_zero hS'
  rw [← add_div, div_le_div_iff₀ h0 h0']
  exact_mod_cast h

theorem rising_price {val' : Valuation} {es : List (Event cfg)} {q : Rat} (hc : Chain w es w')
    (hrun : ∀ e ∈ es, e.act.run L e.tx e.pre = .ok e.post) (hr : Rising L val es val' q) (hi : Inv cfg w) (hb : Backed cfg val w)
    (hS : ∀ e ∈ es, lpSupply e.pre ≠ 0 ∧ lpSupply e.post ≠ 0) :
    (refTotal w : Rat) / lpSupply w ≤ refTotal w' / lpSupply w' + q := by
  induction hr generalizing w with
  | nil => cases hc; simp
  | @cons val val₁ val' e es q up follows rest ih =>
    cases hc with
    | cons hc =>
      have hre := hrun e List.mem_cons_self
      have he := event_price hi hre follows (hb.up up)
      have hs := hS e List.mem_cons_self
      have h1 := div_step hs.1 hs.2 (he.2 hs.1)
      have h2 := ih hc (fun e he => hrun e (List.mem_cons_of_mem _ he)) (hi.action hre) he.1
        (fun e he => hS e (List.mem_cons_of_mem _ he))
      linarith

end

/-! ### C51 -/

/-- While no LST loses value, no LST is ever recorded at more than its reserves are worth; in particular since deployment, when no LST
is listed. -/
theorem C51_backed {cfg : Cfg} {L : RatioLib} {w : World} (hr : Reachable cfg L w) {val val' : Valuation} (hb : Backed cfg val w)
    {h : List (Tx cfg)} {q : Rat} (hv : Rising L val (historyEvents L w h) val' q) : Backed cfg val' (runHistory L w h) :=
  rising_backed (historyEvents_chain L w h).1 (historyEvents_chain L w h).2 hv hr.inv hb

/-- C51: while no LST loses value, the value of an LP token, `totalOf / lpSupply`, never falls, except for the rounding losses `q` of
deposits and redemptions: over any history of transactions of anyone, valuations that change along the way included, as long as there are LP
tokens and the state at its start is backed. -/
theorem C51_lp_price {cfg : Cfg} {L : RatioLib} {w : World} (hr : Reachable cfg L w) {val val' : Valuation} (hb : Backed cfg val w)
    {h : List (Tx cfg)} {q : Rat} (hv : Rising L val (historyEvents L w h) val' q)
    (hS : ∀ e ∈ historyEvents L w h, lpSupply e.pre ≠ 0 ∧ lpSupply e.post ≠ 0) : lpPrice w ≤ lpPrice (runHistory L w h) + q := by
  have h0 : w.ctl.rebal = none := by
    obtain ⟨w₀, hf, h₀, rfl⟩ := hr
    exact (C02_never_left_rebalancing L hf h₀).1
  have h1 : (runHistory L w h).ctl.rebal = none := runHistory_closes L h h0
  have := rising_price (historyEvents_chain L w h).1 (historyEvents_chain L w h).2 hv hr.inv hb hS
  rw [refTotal_none h0, refTotal_none h1] at this
  exact this

theorem Rising.noLoss {cfg : Cfg} {L : RatioLib} {val val' : Valuation} {es : List (Event cfg)} {q : Rat} (h : Rising L val es val' q)
    (hl : ∀ e ∈ es, ∀ v, e.loss v = 0) : q = 0 := by
  induction h with
  | nil => rfl
  | @cons val val₁ val' e es q up follows rest ih =>
    rw [hl e List.mem_cons_self, ih fun e he => hl e (List.mem_cons_of_mem _ he)]
    simp

/-- Without deposits and redemptions (swaps, syncs, rebalancing and administration only) there is no loss at all. -/
theorem C51_trading {cfg : Cfg} {L : RatioLib} {w : World} (hr : Reachable cfg L w) {val val' : Valuation} (hb : Backed cfg val w)
    {h : List (Tx cfg)} {q : Rat} (hv : Rising L val (historyEvents L w h) val' q)
    (hS : ∀ e ∈ historyEvents L w h, lpSupply e.pre ≠ 0 ∧ lpSupply e.post ≠ 0)
    (hno : ∀ e ∈ historyEvents L w h, ∀ accs a b, ¬ e.IsIx accs (.addLiquidity a) ∧ ¬ e.IsIx accs (.removeLiquidity b)) :
    lpPrice w ≤ lpPrice (runHistory L w h) := by
  have h0 := C51_lp_price hr hb hv hS
  rw [hv.noLoss fun e he v => ?_] at h0
  · simpa using h0
  · unfold Event.loss
    split
    · rfl
    · rename_i c hc
      split
      · rename_i a hd; exact absurd ⟨c, hc, rfl, hd⟩ (hno e he c.accs a ⟨0, 0, 0, 0⟩).1
      · rename_i b hd; exact absurd ⟨c, hc, rfl, hd⟩ (hno e he c.accs ⟨0, 0, 0, 0⟩ b).2
      · rfl

/-- A fixed valuation whose calculators charge no withdrawal fees. -/
theorem Rising.const {cfg : Cfg} {L : RatioLib} {val : Valuation} (hn : ∀ m, (val m).depositSlack = 0 ∧ (val m).redeemSlack = 0)
    {es : List (Event cfg)} (hf : ∀ e ∈ es, e.Follows L val) : Rising L val es val 0 := by
  induction es with
  | nil => exact .nil _
  | cons e es ih =>
    have h1 := Rising.cons (fun m x => Nat.le_refl _) (hf e List.mem_cons_self) (ih fun e he => hf e (List.mem_cons_of_mem _ he))
    have h2 : e.loss val = 0 := by
      unfold Event.loss
      split
      · rfl
      · split
        · rename_i a _; cases e.pre.ctl.lsts[a.lstIndex]? with
          | none => rfl
          | some s => exact (hn _).1
        · rename_i a _; cases e.pre.ctl.lsts[a.lstIndex]? with
          | none => rfl
          | some s => exact (hn _).2
        · rfl
    simpa [h2] using h1

/-- A fixed valuation whose calculators charge no withdrawal fees: no loss at all. -/
theorem C51_no_fees {cfg : Cfg} {L : RatioLib} {w : World} (hr : Reachable cfg L w) {val : Valuation} (hb : Backed cfg val w)
    {h : List (Tx cfg)} (hv : ∀ e ∈ historyEvents L w h, e.Follows L val)
    (hn : ∀ m, (val m).depositSlack = 0 ∧ (val m).redeemSlack = 0)
    (hS : ∀ e ∈ historyEvents L w h, lpSupply e.pre ≠ 0 ∧ lpSupply e.post ≠ 0) : lpPrice w ≤ lpPrice (runHistory L w h) := by
  have := C51_lp_price hr hb (Rising.const hn hv) hS
  simpa using this

/-! ### A concrete case -/

/-- The example's LSTs: 21 is worth one lamport a token, 22 three lamports for two. -/
def Ex.val : Valuation := fun m => if m = 22 then .lido ⟨0, 2, 3⟩ else .wsol

/-- In the transactions of the example all calls go to the example's programs. -/
theorem Ex.hist_env {t : Tx Ex.cfg} (ht : t ∈ Ex.hist) {s : Step Ex.cfg} (hs : s ∈ t) {c : Call Ex.cfg} (hc : .call c ∈ s.actions) :
    c.env = Ex.env := by
  simp only [Ex.hist, Ex.tInit, Ex.tAddA, Ex.tAddB, Ex.tDepA, Ex.tDepB, Ex.tSwapIn, Ex.tSwapOut, Ex.tRedeem, Ex.tRebalance, Ex.call,
    Ex.payA, List.mem_cons, List.not_mem_nil, or_false] at ht
  rcases ht with rfl | rfl | rfl | rfl | rfl | rfl | rfl | rfl | rfl <;>
    simp only [List.mem_cons, List.not_mem_nil, or_false] at hs <;>
    (try rcases hs with rfl | rfl | rfl) <;> (try subst hs) <;>
    simp_all [Step.actions]

theorem Ex.follows {w : World} {h : List (Tx Ex.cfg)} (hh : ∀ t ∈ h, t ∈ Ex.hist)
    (hl : ∀ e ∈ historyEvents .ex w h, ∀ s ∈ e.pre.ctl.lsts ++ e.post.ctl.lsts, (s.mint = 22 ∧ s.solValueCalculator = 32) ∨
      (s.mint = 21 ∧ s.solValueCalculator = 31)) :
    ∀ e ∈ historyEvents .ex w h, e.Follows .ex Ex.val := by
  intro e he
  refine ⟨fun m => ?_, fun c hc => ?_⟩
  · unfold Ex.val; split
    · exact ⟨by decide, by decide⟩
    · trivial
  · obtain ⟨t, h1, s, h2, h3⟩ := historyEvents_act he
    rw [hc] at h3
    rw [Ex.hist_env (hh t h1) h2 h3]
    refine ⟨Env.pure_quiet, fun s hs => ?_⟩
    rcases hl e he s (List.mem_append.2 hs) with ⟨e1, e2⟩ | ⟨e1, e2⟩
    · rw [e1, e2]
      intro n w' ms r l hm
      exact ⟨fun a h => (Env.pure_calc.1 h).1, fun v h => (Env.pure_calc.1 h).1⟩
    · rw [e1, e2]
      intro n w' ms r l hm
      exact ⟨fun a h => (Env.pure_calc.1 h).1, fun v h => (Env.pure_calc.1 h).1⟩

/-- The first deposit is made; then a deposit, two swaps, a redemption and a rebalance. -/
def Ex.rest : List (Tx Ex.cfg) := [Ex.tDepB, Ex.tSwapIn, Ex.tSwapOut, Ex.tRedeem, Ex.tRebalance]

theorem Ex.val_noFees (m : Pubkey) : (Ex.val m).depositSlack = 0 ∧ (Ex.val m).redeemSlack = 0 := by
  unfold Ex.val; split <;> exact ⟨rfl, rfl⟩

theorem Ex.backed {n : Nat} (hl : ∀ e ∈ historyEvents .ex Ex.w0 (Ex.hist.take n), ∀ s ∈ e.pre.ctl.lsts ++ e.post.ctl.lsts,
    (s.mint = 22 ∧ s.solValueCalculator = 32) ∨ (s.mint = 21 ∧ s.solValueCalculator = 31)) : Backed Ex.cfg Ex.val (Ex.st n) :=
  C51_backed ⟨Ex.w0, Ex.w0_fresh, [], rfl⟩ (fun s hs => by cases hs)
    (Rising.const Ex.val_noFees (Ex.follows (fun t ht => List.mem_of_mem_take ht) hl))

-- The hypotheses hold for this history; the price rises from 1 to more than 1.
example : lpPrice (Ex.st 4) ≤ lpPrice (runHistory .ex (Ex.st 4) Ex.rest) :=
  C51_no_fees (Ex.st_reachable 4) (Ex.backed (by decide +kernel)) (Ex.follows (by simp [Ex.rest, Ex.hist]) (by decide +kernel))
    Ex.val_noFees (by decide +kernel)
example : totalOf (Ex.st 4) = 30000 ∧ lpSupply (Ex.st 4) = 30000 ∧
    (historyEvents .ex (Ex.st 4) Ex.rest).length = 7 ∧ lpSupply (Ex.st 9) < totalOf (Ex.st 9) := by decide +kernel

end S

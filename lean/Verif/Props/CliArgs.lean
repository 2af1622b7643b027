import Verif.CliArgs
import Verif.Props.CliRoute
import Verif.Props.CalcCli
import Verif.Props.AdminCli
/-
C96: what the command line tools take their arguments for.
-/
set_option autoImplicit false
namespace S

/-! ### The statement -/

/-- The names the calculator tool lists in its help text, and the programs they stand for. -/
def JupCfg.calcNames (J : JupCfg) : List (String × Pubkey) :=
  [("lido", J.lido.programId), ("marinade", J.marinade.programId), ("sanctum-spl", (J.spl .sanctumSpl).programId),
    ("sanctum-spl-multi", (J.spl .sanctumSplMulti).programId), ("spl", (J.spl .spl).programId), ("wsol", J.wsolProgram)]

/-- `text` names the program `k`: by one of the names, else as a public key. -/
def Names (names : List (String × Pubkey)) (key : String → Option Pubkey) (text : String) (k : Pubkey) : Prop :=
  (text, k) ∈ names ∨ (text ∉ names.map Prod.fst ∧ key text = some k)

/-! ### Proofs -/

section
variable {J : JupCfg} {L : RatioLib} {key : String → Option Pubkey} {text : String}

theorem okOr_pure_iff {α β : Type} {o : Option α} {e : Err} {f : α → β} {b : β} :
    (do let k ← okOr o e; pure (f k) : R β) = .ok b ↔ ∃ k, o = some k ∧ f k = b := by
  simp only [bind_ok, okOr_ok, pure_ok]

/-- C96: `set-pricing-prog` accepts exactly the name `flat-fee` and public keys, and takes them for the program they stand for. -/
theorem C96_pricing_arg {k : Pubkey} :
    (∃ a, PricingArg.parse key text = .ok a ∧ a.programId J = k) ↔ Names [("flat-fee", J.fc.programId)] key text k := by
  unfold PricingArg.parse Names
  by_cases h : text = "flat-fee"
  · subst h
    simp [PricingArg.programId, eq_comm]
  · simp only [h, if_false, bind_ok, okOr_ok, pure_ok, List.map_cons, List.map_nil, List.mem_cons, Prod.mk.injEq, false_and, List.not_mem_nil, or_false, false_or,
      not_false_eq_true, true_and]
    constructor
    · rintro ⟨_, ⟨k', hk, rfl⟩, rfl⟩; exact hk
    · intro hk; exact ⟨_, ⟨k, hk, rfl⟩, rfl⟩

/-- C96: `set-pricing-prog` sends an instruction the administrator alone need sign, and what it changes is that the pool's pricing program is the one named. -/
theorem C96_pricing {w : World} {p : PoolState} {signer : Pubkey} {ix : TopIx} (hp : w.ctl.pool = some p) (h : cmdSetPricing J key w signer text = .ok ix) :
    p.admin = signer ∧ ∃ k, Names [("flat-fee", J.fc.programId)] key text k ∧ Signable ix [signer] ∧ Results J.cfg L w ix fun w' =>
      p.Active ∧ w.led.exec k = true ∧ w' = { w with ctl := { w.ctl with pool := some { p with pricingProgram := k } } } := by
  simp only [cmdSetPricing, bind_ok] at h
  obtain ⟨a, ha, hs⟩ := h
  have hadm : p.admin = signer := by
    have hs' := hs
    simp only [AdminCli.setPricing, bind_ok, fetchAdmin_ok, pure_ok, hp] at hs'
    obtain ⟨_, ⟨e, e'⟩, -⟩ := hs'
    cases e
    exact e'
  exact ⟨hadm, _, C96_pricing_arg.1 ⟨a, ha, rfl⟩, C60_setPricing hp hs⟩

theorem CalcArg.ofKey_programId (k : Pubkey) : (CalcArg.ofKey J k).programId J = k := by
  unfold CalcArg.ofKey
  split_ifs with h1 h2 h3 h4 h5 h6
  · exact h1.symm
  · exact h2.symm
  · exact h3.symm
  · exact h4.symm
  · exact h5.symm
  · exact h6.symm
  · rfl

/-- C96: the calculator tool accepts exactly the six names and public keys, and takes them for the program they stand for. -/
theorem C96_calc_arg {k : Pubkey} : (∃ a, CalcArg.parse J key text = .ok a ∧ a.programId J = k) ↔ Names J.calcNames key text k := by
  unfold CalcArg.parse Names JupCfg.calcNames
  by_cases h1 : text = "lido"
  · subst h1; simp [CalcArg.programId, eq_comm]
  by_cases h2 : text = "marinade"
  · subst h2; simp [CalcArg.programId, eq_comm]
  by_cases h3 : text = "sanctum-spl"
  · subst h3; simp [CalcArg.programId, eq_comm]
  by_cases h4 : text = "sanctum-spl-multi"
  · subst h4; simp [CalcArg.programId, eq_comm]
  by_cases h5 : text = "spl"
  · subst h5; simp [CalcArg.programId, eq_comm]
  by_cases h6 : text = "wsol"
  · subst h6; simp [CalcArg.programId, eq_comm]
  simp only [h1, h2, h3, h4, h5, h6, if_false, bind_ok, okOr_ok, pure_ok, List.map_cons, List.map_nil, List.mem_cons, Prod.mk.injEq, false_and, List.not_mem_nil, or_false,
    false_or, not_false_eq_true, true_and, or_self]
  constructor
  · rintro ⟨_, ⟨k', hk, rfl⟩, rfl⟩; rw [CalcArg.ofKey_programId]; exact hk
  · intro hk; exact ⟨_, ⟨k, hk, rfl⟩, CalcArg.ofKey_programId k⟩

/-- A calculator program among the five that value a stake pool. -/
def JupCfg.poolCalcs (J : JupCfg) : List PoolCfg := [J.lido, J.marinade, J.spl .sanctumSpl, J.spl .sanctumSplMulti, J.spl .spl]

/-- What the calculator program `k` answers to `q`, about the stake pool `pool` if it values several. -/
def Replies (J : JupCfg) (L : RatioLib) (ch : OnChain) (st : Pubkey → Option CalcState) (pool : Option Pubkey) (q : CalcReq) (k : Pubkey) (r : Range) : Prop :=
  (k = J.wsolProgram ∧ r = ⟨q.amount, q.amount⟩) ∨
    ∃ pc ∈ J.poolCalcs, pc.programId = k ∧ ∃ at' mint c s, (pc.kind = .spl → pool = some at') ∧ UsablePool pc ch (pc.poolAt at') mint c ∧
      PoolCode pc ch pc.poolProgData ∧ st pc.programId = some s ∧ DeployedAt ch pc.poolProgData s.lastUpgradeSlot ∧ c.reply L q = .ok r

theorem calcArg_reply {ch : OnChain} {st : Pubkey → Option CalcState} {pool : Option Pubkey} {q : CalcReq} {r : Range} (hq : q.amount < U64)
    (hid : (J.calcNames.map Prod.snd).Nodup) (a : CalcArg) (ha : ∀ k, a = .unknown k → k ∉ J.calcNames.map Prod.snd) :
    cmdAskAny J L ch st pool q a = .ok r ↔ Replies J L ch st pool q (a.programId J) r := by
  simp only [JupCfg.calcNames, List.map_cons, List.map_nil, List.nodup_cons, List.mem_cons, List.not_mem_nil, or_false, not_or, not_false_eq_true, List.nodup_nil,
    and_true] at hid ha
  obtain ⟨⟨d1, d2, d3, d4, d5⟩, ⟨d6, d7, d8, d9⟩, ⟨e1, e2, e3⟩, ⟨e4, e5⟩, e6⟩ := hid
  have hlk : J.lido.kind ≠ .spl := by rw [J.lido_kind]; exact fun h => by cases h
  have hmk : J.marinade.kind ≠ .spl := by rw [J.marinade_kind]; exact fun h => by cases h
  have hl0 : ∀ x, J.lido.poolAt x = J.lido.poolAt 0 := fun x => by simp [PoolCfg.poolAt, J.lido_kind]
  have hm0 : ∀ x, J.marinade.poolAt x = J.marinade.poolAt 0 := fun x => by simp [PoolCfg.poolAt, J.marinade_kind]
  have hs : ∀ k, cmdAskAny J L ch st pool q (.spl k) = .ok r ↔ ∃ at' mint c s, pool = some at' ∧ UsablePool (J.spl k) ch ((J.spl k).poolAt at') mint c ∧
      PoolCode (J.spl k) ch (J.spl k).poolProgData ∧ st (J.spl k).programId = some s ∧ DeployedAt ch (J.spl k).poolProgData s.lastUpgradeSlot ∧ c.reply L q = .ok r := by
    intro k
    simp only [cmdAskAny, bind_ok, okOr_ok, C59_ask hq]
    constructor
    · rintro ⟨x, hx, m, c, s, h⟩; exact ⟨x, m, c, s, hx, h⟩
    · rintro ⟨x, m, c, s, hx, h⟩; exact ⟨x, hx, m, c, s, h⟩
  unfold Replies JupCfg.poolCalcs
  simp only [List.mem_cons, List.not_mem_nil, or_false, exists_eq_or_imp, exists_eq_left]
  cases a with
  | lido =>
    simp only [CalcArg.programId, d1, d5, Ne.symm d1, Ne.symm d2, Ne.symm d3, Ne.symm d4, false_and, or_false, false_or, true_and, hlk, false_imp_iff, hl0,
      exists_const, cmdAskAny, C59_ask hq]
  | marinade =>
    simp only [CalcArg.programId, d1, d9, Ne.symm d6, Ne.symm d7, Ne.symm d8, false_and, or_false, false_or, true_and, hmk, false_imp_iff, hm0,
      exists_const, cmdAskAny, C59_ask hq]
  | wsol =>
    have hx : cmdAskAny J L ch st pool q .wsol = .ok r ↔ r = ⟨q.amount, q.amount⟩ := by
      have := C28_wsol (programId := J.wsolProgram) (wsolMint := J.wsolMint) (callee := J.wsolProgram) (accs := [roMeta J.wsolMint]) (r := r) hq
      simp only [roMeta, List.head?_cons, Option.map_some, true_and] at this
      rw [← this]
      cases q <;> rfl
    simp only [CalcArg.programId, hx, d5, d9, e3, e5, e6, true_and, false_and, or_false]
  | spl k =>
    rw [hs k]
    cases k
    · simp only [CalcArg.programId, d4, d8, e2, e4, e6, J.spl_kind, true_imp_iff, true_and, false_and, false_or]
    · simp only [CalcArg.programId, d2, d6, e3, Ne.symm e1, Ne.symm e2, J.spl_kind, true_imp_iff, true_and, false_and, false_or, or_false]
    · simp only [CalcArg.programId, d3, d7, e1, e5, Ne.symm e4, J.spl_kind, true_imp_iff, true_and, false_and, false_or, or_false]
  | unknown k =>
    obtain ⟨n1, n2, n3, n4, n5, n6⟩ := ha k rfl
    simp only [CalcArg.programId, n6, Ne.symm n1, Ne.symm n2, Ne.symm n3, Ne.symm n4, Ne.symm n5, false_and, or_false, cmdAskAny, reduceCtorEq]

theorem parse_unknown {k : Pubkey} (h : CalcArg.parse J key text = .ok (.unknown k)) : k ∉ J.calcNames.map Prod.snd := by
  unfold CalcArg.parse at h
  split_ifs at h
  all_goals try (injection h with h; exact absurd h (by simp))
  simp only [bind_ok, okOr_ok, pure_ok] at h
  obtain ⟨k', -, h⟩ := h
  unfold CalcArg.ofKey at h
  split_ifs at h
  injection h with h
  subst h
  simp only [JupCfg.calcNames, List.map_cons, List.map_nil, List.mem_cons, List.not_mem_nil, or_false, not_or]
  exact ⟨‹_›, ‹_›, ‹_›, ‹_›, ‹_›, ‹_›⟩

/-- C96: what `lst-to-sol` and `sol-to-lst` print is what the program named answers, whichever way it is named; other programs are refused. The SPL programs
need the pool to be given. -/
theorem C96_ask {ch : OnChain} {st : Pubkey → Option CalcState} {pool : Option Pubkey} {q : CalcReq} {r : Range} (hq : q.amount < U64)
    (hid : (J.calcNames.map Prod.snd).Nodup) :
    (∃ a, CalcArg.parse J key text = .ok a ∧ cmdAskAny J L ch st pool q a = .ok r) ↔
      ∃ k, Names J.calcNames key text k ∧ Replies J L ch st pool q k r := by
  constructor
  · rintro ⟨a, ha, h⟩
    exact ⟨_, C96_calc_arg.1 ⟨a, ha, rfl⟩, (calcArg_reply hq hid a (by rintro k rfl; exact parse_unknown ha)).1 h⟩
  · rintro ⟨k, hk, h⟩
    obtain ⟨a, ha, rfl⟩ := C96_calc_arg.2 hk
    exact ⟨a, ha, (calcArg_reply hq hid a (by rintro k rfl; exact parse_unknown ha)).2 h⟩

end

/-! ### The stake account of `rebal-stake` -/

section
variable {addr : Pubkey → String → Pubkey} {taken : Pubkey → Bool} {base : Pubkey}

theorem firstFree_ok {ns : List Nat} {k : Pubkey} {s : String} :
    firstFree addr taken base ns = .ok (k, s) ↔ ∃ pre n post, ns = pre ++ n :: post ∧ s = toString n ∧ k = addr base s ∧ taken k = false ∧
      ∀ m ∈ pre, taken (addr base (toString m)) = true := by
  induction ns with
  | nil => simp [firstFree]
  | cons x xs ih =>
    unfold firstFree
    by_cases hx : taken (addr base (toString x)) = true
    · rw [if_pos hx, ih]
      constructor
      · rintro ⟨pre, n, post, rfl, h1, h2, h3, h4⟩
        exact ⟨x :: pre, n, post, rfl, h1, h2, h3, List.forall_mem_cons.2 ⟨hx, h4⟩⟩
      · rintro ⟨pre, n, post, e, h1, h2, h3, h4⟩
        cases pre with
        | nil => simp only [List.nil_append, List.cons.injEq] at e; obtain ⟨rfl, rfl⟩ := e; subst h1; subst h2; rw [hx] at h3; cases h3
        | cons y ys => simp only [List.cons_append, List.cons.injEq] at e; obtain ⟨rfl, rfl⟩ := e; exact ⟨ys, n, post, rfl, h1, h2, h3, (List.forall_mem_cons.1 h4).2⟩
    · rw [if_neg hx]
      simp only [Bool.not_eq_true] at hx
      constructor
      · intro h; injection h with h; injection h with h1 h2; subst h1; subst h2
        exact ⟨[], x, xs, rfl, rfl, rfl, hx, by simp⟩
      · rintro ⟨pre, n, post, e, h1, h2, h3, h4⟩
        cases pre with
        | nil => simp only [List.nil_append, List.cons.injEq] at e; obtain ⟨rfl, rfl⟩ := e; subst h1; subst h2; rfl
        | cons y ys => simp only [List.cons_append, List.cons.injEq] at e; obtain ⟨rfl, rfl⟩ := e; rw [(List.forall_mem_cons.1 h4).1] at hx; cases hx

theorem range_split {N n : Nat} {pre post : List Nat} (e : List.range N = pre ++ n :: post) : n < N ∧ ∀ m < n, m ∈ pre := by
  have hl : pre.length < N := by
    have := congrArg List.length e
    simp only [List.length_range, List.length_append, List.length_cons] at this
    omega
  have hn : n = pre.length := by
    have h1 : (List.range N)[pre.length]? = some n := by rw [e]; simp
    rw [List.getElem?_range hl] at h1
    exact (Option.some.inj h1).symm
  refine ⟨hn ▸ hl, fun m hm => ?_⟩
  have hm' : m < pre.length := hn ▸ hm
  have h1 : (List.range N)[m]? = pre[m]? := by rw [e, List.getElem?_append_left hm']
  rw [List.getElem?_range (by omega)] at h1
  exact List.mem_of_getElem? h1.symm

/-- C96: the stake account is the first of nine of the payer's that does not exist; the search fails exactly if all nine do. -/
theorem C96_seed :
    (∀ k s, unusedStake addr taken base = .ok (k, s) → ∃ n < 9, s = toString n ∧ k = addr base s ∧ taken k = false ∧
      ∀ m < n, taken (addr base (toString m)) = true) ∧
    ((∃ x, unusedStake addr taken base = .ok x) ↔ ∃ n < 9, taken (addr base (toString n)) = false) := by
  have h1 : ∀ k s, unusedStake addr taken base = .ok (k, s) → ∃ n < 9, s = toString n ∧ k = addr base s ∧ taken k = false ∧
      ∀ m < n, taken (addr base (toString m)) = true := by
    intro k s h
    obtain ⟨pre, n, post, e, a, b, c, d⟩ := firstFree_ok.1 h
    obtain ⟨hn, hpre⟩ := range_split e
    exact ⟨n, hn, a, b, c, fun m hm => d m (hpre m hm)⟩
  refine ⟨h1, ?_, ?_⟩
  · rintro ⟨⟨k, s⟩, h⟩
    obtain ⟨n, hn, rfl, rfl, h, -⟩ := h1 k s h
    exact ⟨n, hn, h⟩
  · rintro ⟨n, hn, h⟩
    unfold unusedStake
    have : ∀ ns : List Nat, n ∈ ns → ∃ x, firstFree addr taken base ns = .ok x := by
      intro ns
      induction ns with
      | nil => intro h; cases h
      | cons y ys ih =>
        intro hm
        unfold firstFree
        split_ifs with hy
        · rcases List.mem_cons.1 hm with rfl | hm
          · rw [h] at hy; cases hy
          · exact ih hm
        · exact ⟨_, rfl⟩
    exact this _ (List.mem_range.2 hn)

/-- C96: the transaction of `rebal-stake` creates one account, the payer's stake account of a one-digit seed, where no account exists; the stake withdrawn goes there and
is deposited from there. -/
theorem C96_rebalStake {J : JupCfg} {L : RatioLib} {S : SPool} {auth wallet : Pubkey} {a b : SanctumLst} {arg : AmtArg} {r : StakeRoute}
    {fetch : Pubkey → Option TokenAcc} {out : List CliIx} (h : rebalStakeRun J L S auth wallet a b arg r fetch addr taken = .ok out) :
    ∃ n < 9, taken (addr wallet (toString n)) = false ∧ (∃ l, CliIx.createStake wallet (addr wallet (toString n)) l ∈ out) ∧
      (∀ p k l, CliIx.createStake p k l ∈ out → p = wallet ∧ k = addr wallet (toString n)) ∧
      (∀ g k v s m, CliIx.withdrawStake g k v s m ∈ out → k = addr wallet (toString n)) ∧
      ∀ g k v d, CliIx.depositStake g k v d ∈ out → k = addr wallet (toString n) := by
  simp only [rebalStakeRun, bind_ok, Prod.exists] at h
  obtain ⟨k, s, hk, h⟩ := h
  obtain ⟨n, hn, rfl, rfl, hfree, -⟩ := C96_seed.1 k s hk
  simp only [rebalStakeCmd, StakeRoute.depositIxs, bind_ok, Prod.exists, pure_ok, require_ok, exists_const] at h
  obtain ⟨amt, -, wsq, dsq, -, plan, -, dep, ⟨-, rfl⟩, sub, hsub, rfl⟩ := h
  have hs : ∀ x ∈ sub, ∃ g s m d y, x = .transfer g s m d y := by
    simp only [subsidyIxs, bind_ok, require_ok, exists_const, pure_ok] at hsub
    obtain ⟨-, rfl⟩ := hsub
    intro x hx
    split_ifs at hx
    · cases hx
    · rw [List.mem_singleton] at hx; exact ⟨_, _, _, _, _, hx⟩
  have ho : ∀ x ∈ openIxs J fetch wallet ⟨a.mint, a.tokenProgram⟩, ∃ p q m t, x = .createAta p q m t := by
    intro x hx
    unfold openIxs at hx
    split_ifs at hx
    · rw [List.mem_singleton] at hx; exact ⟨_, _, _, _, hx⟩
    · cases hx
  refine ⟨n, hn, hfree, ⟨STAKE_RENT, by simp [withdrawStakeIxs]⟩, ?_, ?_, ?_⟩
  · intro p k l hx
    simp only [withdrawStakeIxs, List.mem_append, List.mem_cons, List.not_mem_nil, or_false, reduceCtorEq, false_or, CliIx.createStake.injEq] at hx
    rcases hx with hx | hx | hx
    · obtain ⟨_, _, _, _, e⟩ := ho _ hx; cases e
    · exact ⟨hx.1, hx.2.1⟩
    · obtain ⟨_, _, _, _, _, e⟩ := hs _ hx; cases e
  · intro g k v s m hx
    simp only [withdrawStakeIxs, List.mem_append, List.mem_cons, List.not_mem_nil, or_false, reduceCtorEq, false_or, CliIx.withdrawStake.injEq] at hx
    rcases hx with hx | hx | hx
    · obtain ⟨_, _, _, _, e⟩ := ho _ hx; cases e
    · exact hx.2.1
    · obtain ⟨_, _, _, _, _, e⟩ := hs _ hx; cases e
  · intro g k v d hx
    simp only [withdrawStakeIxs, List.mem_append, List.mem_cons, List.not_mem_nil, or_false, reduceCtorEq, false_or, CliIx.depositStake.injEq] at hx
    rcases hx with hx | hx | hx
    · obtain ⟨_, _, _, _, e⟩ := ho _ hx; cases e
    · exact hx.2.1
    · obtain ⟨_, _, _, _, _, e⟩ := hs _ hx; cases e

end

/-! ### Concretely -/

namespace Ex

/-- Two addresses in base 58, say. -/
def key58 : String → Option Pubkey
  | "flat" => some 7
  | "lidoCalc" => some 32
  | "mine" => some 4711
  | _ => none

/-- The names are distinct programs, and both ways of naming one work; a typing error is refused. -/
example : (jup.calcNames.map Prod.snd).Nodup ∧ (CalcArg.parse jup key58 "lido").toOption = some .lido ∧ (CalcArg.parse jup key58 "lidoCalc").toOption = some .lido ∧
    (CalcArg.parse jup key58 "mine").toOption = some (.unknown 4711) ∧ (CalcArg.parse jup key58 "lidoo").toOption = none := by decide +kernel

/-- `lst-to-sol wsol` gives the amount back, for a calculator that is not known there is no answer. -/
example : (cmdAskAny jup .ex ⟨fun _ => 0, fun _ => [], 0⟩ (fun _ => none) none (.lstToSol 1000) .wsol).toOption = some ⟨1000, 1000⟩ ∧
    (cmdAskAny jup .ex ⟨fun _ => 0, fun _ => [], 0⟩ (fun _ => none) none (.lstToSol 1000) (.unknown 4711)).toOption = none := by decide +kernel

/-- The administrator (6) may set the pricing program by name; another signer (40) may not. -/
example : (cmdSetPricing jup key58 (st 7) 6 "flat-fee").toOption = (AdminCli.setPricing cfg (st 7) 6 7).toOption ∧
    (cmdSetPricing jup key58 (st 7) 6 "flat-fee").toOption.isSome ∧ (cmdSetPricing jup key58 (st 7) 40 "flat-fee").toOption = none ∧
    (cmdSetPricing jup key58 (st 7) 6 "flatfee").toOption = none := by decide +kernel

/-- Addresses of stake accounts: one for each seed. -/
def seedAddr (base : Pubkey) (seed : String) : Pubkey := base * 100000 + ["0", "1", "2", "3", "4", "5", "6", "7", "8", "9"].idxOf seed

/-- Two stake accounts of earlier runs are still there: the third seed is taken. With nine of them there is none left. -/
example : (unusedStake seedAddr (fun k => k == 4000000 || k == 4000001) 40).toOption = some (4000002, "2") ∧
    (unusedStake seedAddr (fun k => k < 4000009) 40).toOption = none := by decide +kernel

example : (rebalStakeRun jup .ex (cache (st 7)) 6 40 ⟨21, 8, .reservePool⟩ ⟨22, 8, .lido⟩ .all route routeW.led.tok seedAddr (fun k => k == 4000000)).toOption.map
    (fun o => (o.drop 1).take 1) = some [.createStake 40 4000001 STAKE_RENT] := by decide +kernel

end Ex

end S

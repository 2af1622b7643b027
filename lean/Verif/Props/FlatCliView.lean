import Verif.Props.FlatCli
/-
C76: what the reading commands of the flat-fee program's tool show.
-/
set_option autoImplicit false
namespace S

/-! ### Proofs -/

section
variable {L : RatioLib} {fc : FlatCfg} {v : FlatView fc} {F : FlatFee}

theorem simulate_eq {ix : FlatIx} (hix : ix.Wf) (accs : List Acc) {y : Nat} :
    simulatePrice L v F ⟨fc.programId, accs, ix.encode⟩ = .ok y ↔ ∃ F', flatProcess L v F accs ix = .ok (F', some y) := by
  have h := flat_one (L := L) (c := ⟨v, accs, ix.encode⟩) hix rfl F
  simp only at h
  simp only [simulatePrice, h, bind_ok, Prod.exists, okOr_ok]
  constructor
  · rintro ⟨F', r, h1, rfl⟩; exact ⟨F', h1⟩
  · rintro ⟨F', h1⟩; exact ⟨F', _, h1, rfl⟩

/-- With the addresses the tool derives, the program's checks pass exactly if both LSTs have fees, and it reads those. -/
theorem verifyPriceSwap_derived (hF : F.Ok fc) {i o : Pubkey} {fi fo : FeeAccount} :
    verifyPriceSwap v F [roMeta i, roMeta o, roMeta (fc.findFee i).1, roMeta (fc.findFee o).1] = .ok (fi, fo) ↔
      F.feesOf fc i = some fi ∧ F.feesOf fc o = some fo := by
  constructor
  · intro h
    obtain ⟨a, b, h0, h1, h2, h3⟩ := verifyPriceSwap_fees hF h
    cases h0; cases h1
    exact ⟨h2, h3⟩
  · rintro ⟨hi, ho⟩
    have key : ∀ {m : Pubkey} {f : FeeAccount}, F.feesOf fc m = some f → fc.feeAddr m f.bump = some (fc.findFee m).1 := by
      intro m f hf
      obtain ⟨m', hm'⟩ := hF.addr _ f hf
      have e1 := fc.findFee_addr m'
      rw [hm'] at e1
      have e2 := fc.feeAddr_inj e1 (fc.findFee_addr m)
      subst e2
      rw [hm'] at e1 ⊢; exact e1
    simp only [verifyPriceSwap, bind_ok, readFee_ok, okOr_ok, checkKeys_ok, List.forall_mem_cons, exists_const, pure_ok, Prod.mk.injEq, roMeta,
      findFee_foreign, Option.or_none]
    exact ⟨fi, hi, fo, ho, _, key hi, _, key ho, ⟨rfl, rfl, by simp⟩, rfl, rfl⟩

/-- C76, `price-exact-in`: after any history of the program, the command prints a number exactly if both LSTs have fees that together are at most 100% (and
the number fits); the number is the value less the two fees, rounded down. -/
theorem C76_exactIn {cs : List (FlatCall fc)} (hF : F = flatHistory L cs) {i o : Pubkey} {a x y : Nat} (ha : a < U64) (hx : x < U64) :
    cmdPriceExactIn L v F i o a x = .ok y ↔ ∃ fi fo, ∃ n : Nat, F.feesOf fc i = some fi ∧ F.feesOf fc o = some fo ∧
      (n : Int) + fi.inputFeeBps + fo.outputFeeBps = 10000 ∧ y = x * n / 10000 ∧ y < U64 := by
  have hok : F.Ok fc := hF ▸ C26_bounds cs
  rw [cmdPriceExactIn, simulate_eq (ix := .priceExactIn a x) ⟨ha, hx⟩]
  simp only [flatProcess, flatExactIn, bind_ok, pure_ok, Prod.mk.injEq, Prod.exists, verifyPriceSwap_derived hok, flatPriceExactIn_ok,
    outSolValueRatio_ok, Option.some.injEq]
  constructor
  · rintro ⟨_, y', ⟨fi, fo, ⟨h1, h2⟩, n, ⟨h3, _, _⟩, h4, h5⟩, _, e⟩
    obtain rfl := e
    exact ⟨fi, fo, n, h1, h2, by omega, h4, h4 ▸ h5⟩
  · rintro ⟨fi, fo, n, h1, h2, h3, h4, h5⟩
    have b1 := (hok.fee _ _ h1).1
    have b2 := (hok.fee _ _ h2).2
    exact ⟨F, y, ⟨fi, fo, ⟨h1, h2⟩, n, ⟨by omega, by omega, by omega⟩, h4, h4 ▸ h5⟩, rfl, rfl⟩

/-- C76, `price-exact-out`: unless the two fees total exactly 100%, the command prints a number exactly if both LSTs have fees totalling less than 100% (and
the number fits); the number is the value asked for plus one lamport, grossed up by the fees and rounded up. -/
theorem C76_exactOut {cs : List (FlatCall fc)} (hF : F = flatHistory L cs) {i o : Pubkey} {a x y : Nat} (ha : a < U64) (hx : x < U64)
    (h100 : ∀ fi fo, F.feesOf fc i = some fi → F.feesOf fc o = some fo → fi.inputFeeBps + fo.outputFeeBps ≠ 10000) :
    cmdPriceExactOut L v F i o a x = .ok y ↔ ∃ fi fo, ∃ n : Nat, F.feesOf fc i = some fi ∧ F.feesOf fc o = some fo ∧
      (n : Int) + fi.inputFeeBps + fo.outputFeeBps = 10000 ∧ y = cdiv (10000 * (x + 1)) n ∧ y < U64 := by
  have hok : F.Ok fc := hF ▸ C26_bounds cs
  rw [cmdPriceExactOut, simulate_eq (ix := .priceExactOut a x) ⟨ha, hx⟩]
  simp only [flatProcess, flatExactOut, bind_ok, pure_ok, Prod.mk.injEq, Prod.exists, verifyPriceSwap_derived hok, flatPriceExactOut, mapErr_ok,
    outSolValueRatio_ok, Option.some.injEq]
  constructor
  · rintro ⟨_, y', ⟨fi, fo, ⟨h1, h2⟩, n, ⟨h3, _, _⟩, r, h4, h5⟩, _, e⟩
    obtain rfl := e
    have h0 := h100 _ _ h1 h2
    rw [floorReverse_ok (by omega) (by decide)] at h4
    obtain ⟨rfl, _, h6⟩ := h4
    exact ⟨fi, fo, n, h1, h2, by omega, h5.symm, h5 ▸ h6⟩
  · rintro ⟨fi, fo, n, h1, h2, h3, h4, h5⟩
    have b1 := (hok.fee _ _ h1).1
    have b2 := (hok.fee _ _ h2).2
    have h0 := h100 _ _ h1 h2
    have hn : n ≠ 0 := by omega
    refine ⟨F, y, ⟨fi, fo, ⟨h1, h2⟩, n, ⟨by omega, by omega, by omega⟩, ⟨10000 * x / n, y⟩, ?_, rfl⟩, rfl, rfl⟩
    rw [floorReverse_ok hn (by decide)]
    have hle : 10000 * x / n ≤ cdiv (10000 * (x + 1)) n := by
      have h1 : 10000 * x / n ≤ 10000 * (x + 1) / n := Nat.div_le_div_right (by omega)
      refine Nat.le_trans h1 ?_
      unfold cdiv
      exact Nat.div_le_div_right (by omega)
    exact ⟨by rw [h4, BPS], by rw [BPS]; omega, by rw [BPS]; omega⟩

/-- C76, `price-lp-tokens-to-mint` prints the value given, always. -/
theorem C76_mint {m : Pubkey} {a x : Nat} (ha : a < U64) (hx : x < U64) : cmdPriceMint L v F m a x = .ok x := by
  rw [cmdPriceMint, simulate_eq (ix := .priceLpTokensToMint a x) ⟨ha, hx⟩]
  exact ⟨F, rfl⟩

/-- C76, `price-lp-tokens-to-redeem`: once the program is initialized, the command prints the value less the withdrawal fee rounded up. -/
theorem C76_redeem {cs : List (FlatCall fc)} (hF : F = flatHistory L cs) {m : Pubkey} {a x y : Nat} (ha : a < U64) (hx : x < U64) :
    cmdPriceRedeem L v F m a x = .ok y ↔ ∃ s, F.state = some s ∧ y = x - cdiv (x * s.lpWithdrawalFeeBps) 10000 := by
  have hok : F.Ok fc := hF ▸ C26_bounds cs
  rw [cmdPriceRedeem, simulate_eq (ix := .priceLpTokensToRedeem a x) ⟨ha, hx⟩]
  simp only [flatProcess, flatRedeem, bind_ok, pure_ok, Prod.mk.injEq, okOr_ok, checkKeys_ok, exists_const, C25_redeem, Option.some.injEq]
  constructor
  · rintro ⟨_, y', ⟨_, s, hs, _, h⟩, _, e⟩
    obtain rfl := e
    exact ⟨s, hs, h⟩
  · rintro ⟨s, hs, h⟩
    exact ⟨F, y, ⟨by simp [roMeta], s, hs, hok.lpFee s hs, h⟩, rfl, rfl⟩

/-- C76, `view-lst` shows the fees set for the LST, and only fails if there are none. -/
theorem C76_viewLst {m : Pubkey} {f : FeeAccount} : cmdViewFees fc F m = .ok f ↔ F.feesOf fc m = some f := by
  simp only [cmdViewFees, okOr_ok, FlatFee.feesOf]

theorem takeStates_eq {l : List (Pubkey × FlatData)} (h : ∀ x ∈ l, x.1 = fc.stateId → ∃ s, x.2 = .state s) :
    ∃ ss, takeStates fc l = .ok (ss, l.filter fun x => x.1 ≠ fc.stateId) ∧ ∀ s, s ∈ ss ↔ (fc.stateId, FlatData.state s) ∈ l := by
  induction l with
  | nil => exact ⟨[], rfl, by simp⟩
  | cons x xs ih =>
    obtain ⟨ss, h1, h2⟩ := ih fun y hy => h y (List.mem_cons_of_mem _ hy)
    by_cases hx : x.1 = fc.stateId
    · obtain ⟨s, hs⟩ := h x List.mem_cons_self hx
      refine ⟨s :: ss, ?_, fun t => ?_⟩
      · simp [takeStates, hx, hs, FlatData.asState, h1, bind, Except.bind, pure, Except.pure]
      · obtain ⟨k, d⟩ := x
        simp only at hx hs; subst hx; subst hs
        simp only [List.mem_cons, h2, Prod.mk.injEq, true_and, FlatData.state.injEq]
    · refine ⟨ss, ?_, fun t => ?_⟩
      · simp [takeStates, hx, h1, bind, Except.bind, pure, Except.pure]
      · rw [h2]
        constructor
        · exact List.mem_cons_of_mem _
        · intro hm
          rcases List.mem_cons.1 hm with e | e
          · exact absurd (by rw [← e]) hx
          · exact e

theorem lines_mapM {list : List (String × Pubkey)} (l : List (Pubkey × FlatData)) (h : ∀ x ∈ l, ∃ f, x.2 = .fee f) :
    ∃ lines, l.mapM (fun x => do let f ← x.2.asFee; pure (⟨pdaToSymbol fc list x.1, x.1, f⟩ : FeeLine)) = (.ok lines : R _) ∧
      lines.length = l.length ∧ lines.map FeeLine.pda = l.map Prod.fst ∧
      ∀ x : FeeLine, x ∈ lines ↔ (x.pda, FlatData.fee x.fees) ∈ l ∧ x.symbol = pdaToSymbol fc list x.pda := by
  induction l with
  | nil => exact ⟨[], rfl, rfl, rfl, by simp⟩
  | cons y ys ih =>
    obtain ⟨lines, h1, h2, h3, h4⟩ := ih fun x hx => h x (List.mem_cons_of_mem _ hx)
    obtain ⟨f, hf⟩ := h y List.mem_cons_self
    obtain ⟨k, d⟩ := y
    simp only at hf; subst hf
    refine ⟨⟨pdaToSymbol fc list k, k, f⟩ :: lines, ?_, by simp [h2], by simp [h3], fun x => ?_⟩
    · rw [List.mapM_cons, h1]; rfl
    · obtain ⟨s, k', f'⟩ := x
      simp only [List.mem_cons, h4, FeeLine.mk.injEq, Prod.mk.injEq, FlatData.fee.injEq]
      constructor
      · rintro (⟨rfl, rfl, rfl⟩ | ⟨h5, h6⟩)
        · exact ⟨.inl ⟨rfl, rfl⟩, rfl⟩
        · exact ⟨.inr h5, h6⟩
      · rintro ⟨⟨rfl, rfl⟩ | h5, h6⟩
        · exact .inl ⟨h6, rfl, rfl⟩
        · exact .inr ⟨h5, h6⟩

/-- C76, `view`: on the program's accounts the command succeeds; it shows the program's state (nothing before initialization), every fee account with its
fees exactly once and nothing else, and their number. A fee account is labelled with a listed LST's symbol exactly if it is the account derived for that
LST's mint (or, should two listed LSTs share a mint, one of them). -/
theorem C76_view {cs : List (FlatCall fc)} (hF : F = flatHistory L cs) {list : List (String × Pubkey)} {accs : List (Pubkey × FlatData)}
    (ha : Accounts fc F accs) (hp : ∀ m, (fc.findFee m).1 ≠ fc.stateId) :
    ∃ ss lines, cmdViewFlat fc list accs = .ok (ss, lines, lines.length) ∧ (∀ s, s ∈ ss ↔ F.state = some s) ∧
      (lines.map FeeLine.pda).Nodup ∧
      (∀ k f, (∃ sym, ⟨sym, k, f⟩ ∈ lines) ↔ F.fees k = some f) ∧
      (∀ l ∈ lines, ∀ sym, l.symbol = some sym → ∃ m, (sym, m) ∈ list ∧ l.pda = (fc.findFee m).1) ∧
      (∀ l ∈ lines, l.symbol = none → ∀ e ∈ list, l.pda ≠ (fc.findFee e.2).1) := by
  have hok : F.Ok fc := hF ▸ C26_bounds cs
  have hfee : ∀ k f, F.fees k = some f → k ≠ fc.stateId := by
    intro k f hf e
    obtain ⟨m, hm⟩ := hok.addr k f hf
    exact hp m (by rw [hm]; exact e)
  obtain ⟨ss, h1, h2⟩ := takeStates_eq (fc := fc) (l := accs) (by
    rintro ⟨k, d⟩ hx hk
    cases d with
    | state s => exact ⟨s, rfl⟩
    | fee f => exact absurd hk (hfee k f ((ha.fee k f).1 hx)))
  obtain ⟨lines, h3, h4, h5, h6⟩ := lines_mapM (fc := fc) (list := list) (accs.filter fun x => x.1 ≠ fc.stateId) (by
    rintro ⟨k, d⟩ hx
    rw [List.mem_filter] at hx
    cases d with
    | state s => exact absurd ((ha.state k s).1 hx.1).1 (by simpa using hx.2)
    | fee f => exact ⟨f, rfl⟩)
  have h6' : ∀ x : FeeLine, x ∈ lines ↔ F.fees x.pda = some x.fees ∧ x.symbol = pdaToSymbol fc list x.pda := by
    intro x
    rw [h6, List.mem_filter, ha.fee]
    constructor
    · rintro ⟨⟨a, _⟩, b⟩; exact ⟨a, b⟩
    · rintro ⟨a, b⟩; exact ⟨⟨a, by simpa using hfee _ _ a⟩, b⟩
  refine ⟨ss, lines, ?_, fun s => ?_, ?_, fun k f => ?_, ?_, ?_⟩
  · simp only [cmdViewFlat, bind_ok, Prod.exists, pure_ok]
    exact ⟨_, _, h1, _, h3, by rw [h4]⟩
  · rw [h2, ha.state]; simp
  · rw [h5]
    exact ha.once.sublist (List.filter_sublist.map _)
  · simp only [h6']
    constructor
    · rintro ⟨_, a, _⟩; exact a
    · intro a; exact ⟨_, a, rfl⟩
  · intro l hl sym hs
    have := ((h6' l).1 hl).2
    rw [hs, pdaToSymbol] at this
    obtain ⟨e, he, rfl⟩ := Option.map_eq_some_iff.1 this.symm
    have h7 := List.mem_of_find?_eq_some he
    have h8 := List.find?_some he
    exact ⟨e.2, List.mem_reverse.1 h7, (by simpa using h8 : (fc.findFee e.2).1 = l.pda).symm⟩
  · intro l hl hs e he hk
    have := ((h6' l).1 hl).2
    rw [hs, pdaToSymbol, eq_comm, Option.map_eq_none_iff, List.find?_eq_none] at this
    exact this e (List.mem_reverse.2 he) (by simp [hk])

theorem chunks27_spec (l : List Pubkey) : (chunks27 l).flatten = l ∧ ∀ b ∈ chunks27 l, b ≠ [] ∧ b.length ≤ 27 := by
  induction hn : l.length using Nat.strongRecOn generalizing l with
  | _ n ih =>
    rw [chunks27]
    split
    · rename_i h; subst h; simp
    · rename_i h
      have hpos := List.length_pos_iff.2 h
      obtain ⟨h1, h2⟩ := ih (l.drop 27).length (by rw [List.length_drop]; omega) (l.drop 27) rfl
      refine ⟨by rw [List.flatten_cons, h1, List.take_append_drop], fun b hb => ?_⟩
      rcases List.mem_cons.1 hb with rfl | hb
      · refine ⟨?_, by rw [List.length_take]; omega⟩
        intro e
        have := congrArg List.length e
        rw [List.length_take, List.length_nil] at this; omega
      · exact h2 b hb

theorem runLut_extend (bs : List (List Pubkey)) (h : ∀ b ∈ bs, b ≠ []) (t : List Pubkey) (hl : t.length + bs.flatten.length ≤ 256) :
    runLut (some t) (lutTxs [] bs) = .ok (some (t ++ bs.flatten)) := by
  induction bs generalizing t with
  | nil => simp [runLut, lutTxs, pure, Except.pure]
  | cons b bs ih =>
    rw [List.flatten_cons, List.length_append] at hl
    have := ih (fun b hb => h b (List.mem_cons_of_mem _ hb)) (t ++ b) (by rw [List.length_append]; omega)
    rw [List.flatten_cons, ← List.append_assoc, ← this]
    have h1 : LutIx.run (some t) (.extend b) = .ok (some (t ++ b)) := by
      simp [LutIx.run, require, h b List.mem_cons_self, bind, Except.bind, pure, Except.pure, show t.length + b.length ≤ 256 by omega]
    simp only [runLut, lutTxs, List.nil_append, List.foldlM_cons, List.foldlM_nil, h1, bind, Except.bind, pure, Except.pure]

theorem runLut_create (b : List Pubkey) (bs : List (List Pubkey)) (h : ∀ x ∈ b :: bs, x ≠ []) (hl : (b :: bs).flatten.length ≤ 256) :
    runLut none (lutTxs [.create] (b :: bs)) = .ok (some (b :: bs).flatten) := by
  rw [List.flatten_cons, List.length_append] at hl
  have := runLut_extend bs (fun b hb => h b (List.mem_cons_of_mem _ hb)) b (by omega)
  rw [List.flatten_cons, ← this]
  have h1 : LutIx.run (some []) (.extend b) = .ok (some b) := by
    simp [LutIx.run, require, h b List.mem_cons_self, bind, Except.bind, pure, Except.pure, show b.length ≤ 256 by omega]
  have h2 : LutIx.run none .create = .ok (some []) := rfl
  simp only [runLut, lutTxs, List.cons_append, List.nil_append, List.foldlM_cons, List.foldlM_nil, h1, h2, bind, Except.bind, pure, Except.pure]

theorem lutTxs_sizes (bs : List (List Pubkey)) (h : ∀ b ∈ bs, b ≠ [] ∧ b.length ≤ 27) :
    ∀ p, ∀ tx ∈ lutTxs p bs, ∀ ks, LutIx.extend ks ∈ tx → LutIx.extend ks ∈ p ∨ ks ≠ [] ∧ ks.length ≤ 27 := by
  induction bs with
  | nil => intro p tx htx; cases htx
  | cons b bs ih =>
    intro p tx htx ks hks
    rcases List.mem_cons.1 htx with rfl | htx
    · rcases List.mem_append.1 hks with h1 | h1
      · exact .inl h1
      · rw [List.mem_singleton, LutIx.extend.injEq] at h1
        subst h1
        exact .inr (h _ List.mem_cons_self)
    · rcases ih (fun b hb => h b (List.mem_cons_of_mem _ hb)) [] tx htx ks hks with h1 | h1
      · cases h1
      · exact .inr h1

/-- C76, `create-lut`: with the address of an existing table, or with none and a table not yet there while the program has an account, the transactions all
succeed (room permitting), and afterwards the table keeps its addresses in place, followed by the program's accounts that were missing, each once: it then
holds every account of the program. Each transaction adds between 1 and 27 addresses. -/
theorem C76_createLut {given : Bool} {table : Option (List Pubkey)} {accs : List (Pubkey × FlatData)} (ha : Accounts fc F accs)
    (ht : if given then table ≠ none else table = none ∧ accs ≠ []) (hroom : (table.getD []).length + accs.length ≤ 256) :
    ∃ new, runLut table (cmdCreateLut given table accs) = .ok (some (table.getD [] ++ new)) ∧ new.Nodup ∧
      (∀ k, k ∈ new ↔ k ∉ table.getD [] ∧ (k = fc.stateId ∧ F.state ≠ none ∨ F.fees k ≠ none)) ∧
      ∀ tx ∈ cmdCreateLut given table accs, ∀ ks, LutIx.extend ks ∈ tx → 1 ≤ ks.length ∧ ks.length ≤ 27 := by
  let new := (accs.map Prod.fst).filter fun k => ¬ k ∈ table.getD []
  have hnew : new = (accs.map Prod.fst).filter fun k => ¬ k ∈ table.getD [] := rfl
  obtain ⟨hc1, hc2⟩ := chunks27_spec new
  have hlen : new.length ≤ accs.length := by
    rw [hnew]; refine Nat.le_trans (List.length_filter_le _ _) ?_; rw [List.length_map]
  refine ⟨new, ?_, ha.once.sublist List.filter_sublist, fun k => ?_, ?_⟩
  · have e : cmdCreateLut given table accs = lutTxs (if given then [] else [.create]) (chunks27 new) := rfl
    rw [e]
    cases given with
    | true =>
      obtain ⟨t, rfl⟩ := Option.ne_none_iff_exists'.1 ht
      simp only [Option.getD_some] at hroom ⊢
      have := runLut_extend (chunks27 new) (fun b hb => (hc2 b hb).1) t (by rw [hc1]; omega)
      rwa [hc1] at this
    | false =>
      obtain ⟨rfl, hne⟩ := ht
      have hnn : new = accs.map Prod.fst := by
        rw [hnew, List.filter_eq_self]; intro k _; simp
      have hcc : chunks27 new ≠ [] := by
        intro e'
        rw [e'] at hc1
        rw [hnn, eq_comm, List.flatten_nil, List.map_eq_nil_iff] at hc1
        exact hne hc1
      obtain ⟨b, bs, hbs⟩ := List.exists_cons_of_ne_nil hcc
      rw [hbs] at hc1 hc2 ⊢
      have := runLut_create b bs (fun x hx => (hc2 x hx).1) (by rw [hc1]; simp at hroom; omega)
      rw [hc1] at this
      simpa using this
  · rw [hnew, List.mem_filter, List.mem_map]
    simp only [decide_not, Bool.not_eq_eq_eq_not, Bool.not_true, decide_eq_false_iff_not]
    constructor
    · rintro ⟨⟨⟨k', d⟩, hm, rfl⟩, h1⟩
      refine ⟨h1, ?_⟩
      cases d with
      | state s => left; obtain ⟨a, b⟩ := (ha.state k' s).1 hm; exact ⟨a, by rw [b]; simp⟩
      | fee f => right; rw [(ha.fee k' f).1 hm]; simp
    · rintro ⟨h1, h2⟩
      refine ⟨?_, h1⟩
      rcases h2 with ⟨rfl, h2⟩ | h2
      · obtain ⟨s, hs⟩ := Option.ne_none_iff_exists'.1 h2
        exact ⟨_, (ha.state _ s).2 ⟨rfl, hs⟩, rfl⟩
      · obtain ⟨f, hf⟩ := Option.ne_none_iff_exists'.1 h2
        exact ⟨_, (ha.fee k f).2 hf, rfl⟩
  · intro tx htx ks hks
    rcases lutTxs_sizes (chunks27 new) hc2 _ tx htx ks hks with h1 | ⟨h1, h2⟩
    · cases given <;> simp at h1
    · exact ⟨List.length_pos_iff.2 h1, h2⟩
end

/-! ### Examples -/
namespace Ex

-- input 21 at 30, output 22 at -10: 20 basis points
example : (cmdPriceExactIn .ex fview flat 21 22 1000 100000).toOption = some 99800 := by decide +kernel
example : (cmdPriceExactOut .ex fview flat 21 22 1000 99800).toOption = some 100002 := by decide +kernel
example : (cmdPriceRedeem .ex fview flat 21 1000 100000).toOption = some 99750 := by decide +kernel
example : (cmdPriceMint .ex fview flat 21 1000 100000).toOption = some 100000 := by decide +kernel
-- no fees for 23
example : (cmdPriceExactIn .ex fview flat 21 23 1000 100000).toOption = none := by decide +kernel
example : (cmdViewFees fc flat 22).toOption = some ⟨254, 40, -10⟩ := by decide +kernel
-- 22 is on the list, 21 is not
example : (cmdViewFlat fc [("bSOL", 22), ("jitoSOL", 24)] progAccs).toOption =
    some ([⟨305, 25⟩], [⟨some "bSOL", 1022, ⟨254, 40, -10⟩⟩, ⟨none, 1021, ⟨254, 30, 20⟩⟩], 2) := by decide +kernel

theorem flat_unlike_state : ∀ m, (fc.findFee m).1 ≠ fc.stateId := by
  intro (m : Nat) h; have h : 1000 + m = 300 := h; omega

example : (runLut (some [9, 300]) (cmdCreateLut true (some [9, 300]) progAccs)).toOption = some (some [9, 300, 1022, 1021]) := by decide +kernel
example : (runLut none (cmdCreateLut false none progAccs)).toOption = some (some [1022, 300, 1021]) := by decide +kernel

end Ex
end S

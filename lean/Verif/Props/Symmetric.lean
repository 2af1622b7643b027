import Verif.Props.CalcPrograms
import Verif.Props.Conversions
/-!
C99: the "LstToSol - SolToLst Accounts Symmetricality" demanded by docs/sol-value-calculator-programs/README.md: whoever got one answer from a calculator
with a list of accounts gets every other answer, in both directions, with the same list; all the answers come from the same figures of one stake pool,
so converting back and forth brackets the amount.
-/
set_option autoImplicit false
namespace S

variable {L : RatioLib} {pc : PoolCfg} {ch : OnChain} {st : Option CalcState} {accs : List Acc}

/-- C99: one list of accounts for all questions, answered from the figures of one stake pool. -/
theorem C99_symmetric {st' : Option CalcState} {pid : Pubkey} {q₀ : CalcReq} {r₀ : Range} (h0 : q₀.amount < U64)
    (h : calcInstruction L pc ch st pid accs q₀.encode = .ok (st', some r₀)) :
    ∃ pool mint c, (accs.head?.map Acc.key = some mint) ∧ UsablePool pc ch pool mint c ∧
      ∀ (q : CalcReq) (st'' : Option CalcState) (r : Range), q.amount < U64 →
        (calcInstruction L pc ch st pid accs q.encode = .ok (st'', some r) ↔ st'' = st ∧ c.reply L q = .ok r) := by
  obtain ⟨hp, -, mint, pool, pd, s, c, h1, h2, h3, h4, h5, -⟩ := (C28_answers h0).1 h
  refine ⟨pool, mint, c, ?_, h2, fun q st'' r hq => ?_⟩
  · obtain ⟨_, _, _, _, _, _, rfl, rfl, _⟩ := h1; rfl
  · rw [C28_answers hq]
    constructor
    · rintro ⟨-, e, mint', pool', pd', s', c', k1, k2, -, -, -, hr⟩
      obtain ⟨a, b, d, f, g, rest, rfl, rfl, -, rfl, -, rfl⟩ := h1
      obtain ⟨a', b', d', f', g', rest', e1, rfl, -, rfl, -, rfl⟩ := k1
      simp only [List.cons.injEq] at e1
      obtain ⟨rfl, rfl, rfl, rfl, rfl, rfl⟩ := e1
      rw [h2.unique k2]
      exact ⟨e, hr⟩
    · rintro ⟨e, hr⟩
      exact ⟨hp, e, mint, pool, pd, s, c, h1, h2, h3, h4, h5, hr⟩

/-- C99: converting to lamports and back with the same accounts brackets the amount; converting to tokens and back brackets the lamports (if the stake pool
has tokens and lamports). -/
theorem C99_round_trip {pid : Pubkey} (hu : ∀ k m c, UsablePool pc ch k m c → c.Usable) :
    (∀ n v r, n < U64 → v.min < U64 → calcInstruction L pc ch st pid accs (CalcReq.lstToSol n).encode = .ok (st, some v) →
      calcInstruction L pc ch st pid accs (CalcReq.solToLst v.min).encode = .ok (st, some r) → r.min ≤ n ∧ n ≤ r.max) ∧
    (∀ n r u, n < U64 → r.min < U64 → calcInstruction L pc ch st pid accs (CalcReq.solToLst n).encode = .ok (st, some r) →
      calcInstruction L pc ch st pid accs (CalcReq.lstToSol r.min).encode = .ok (st, some u) → u.max ≤ n) ∧
    (∀ n r u, n < U64 → r.max < U64 → calcInstruction L pc ch st pid accs (CalcReq.solToLst n).encode = .ok (st, some r) →
      calcInstruction L pc ch st pid accs (CalcReq.lstToSol r.max).encode = .ok (st, some u) → n ≤ u.min) := by
  have key : ∀ (q q' : CalcReq) (v r : Range), q.amount < U64 → q'.amount < U64 → calcInstruction L pc ch st pid accs q.encode = .ok (st, some v) →
      calcInstruction L pc ch st pid accs q'.encode = .ok (st, some r) → ∃ c : AnyCalc, c.Usable ∧ c.reply L q = .ok v ∧ c.reply L q' = .ok r := by
    intro q q' v r hq hq' h1 h2
    obtain ⟨pool, mint, c, -, hc, hall⟩ := C99_symmetric hq h1
    exact ⟨c, hu _ _ _ hc, ((hall _ _ _ hq).1 h1).2, ((hall _ _ _ hq').1 h2).2⟩
  refine ⟨fun n v r hn hv h1 h2 => ?_, fun n r u hn hr h1 h2 => ?_, fun n r u hn hr h1 h2 => ?_⟩
  · obtain ⟨c, hc, k1, k2⟩ := key (.lstToSol n) (.solToLst v.min) _ _ hn hv h1 h2
    exact (C23_round_trips L c hc).1 _ _ _ k1 k2
  · obtain ⟨c, hc, k1, k2⟩ := key (.solToLst n) (.lstToSol r.min) _ _ hn hr h1 h2
    exact ((C23_round_trips L c hc).2.1 _ _ _ k1 k2).2
  · obtain ⟨c, hc, k1, k2⟩ := key (.solToLst n) (.lstToSol r.max) _ _ hn hr h1 h2
    exact ((C23_round_trips L c hc).2.2 _ _ _ k1 k2).1

/-- C99, wrapped SOL: the same list serves all questions, and the answer is the amount. -/
theorem C99_wsol {programId wsolMint callee : Pubkey} {q₀ : CalcReq} {r₀ : Range} (h0 : q₀.amount < U64)
    (h : wsolInstruction programId wsolMint callee accs q₀.encode = .ok r₀) (q : CalcReq) (hq : q.amount < U64) :
    wsolInstruction programId wsolMint callee accs q.encode = .ok ⟨q.amount, q.amount⟩ := by
  obtain ⟨h1, h2, -⟩ := (C28_wsol h0).1 h
  exact (C28_wsol hq).2 ⟨h1, h2, rfl⟩

namespace Ex
open Fix

-- The fixtures' pools: one list of accounts, both directions, there and back.
example : answer spl (chain 539) (ask spl jitosolMint jitoPool.1) (.lstToSol 1000000000) = some (Range.single 1072326756) ∧
    (answer spl (chain 539) (ask spl jitosolMint jitoPool.1) (.solToLst 1072326756)).map (fun r => decide (r.min ≤ 1000000000 ∧ 1000000000 ≤ r.max)) = some true ∧
    (answer marinade (chain 539) (ask marinade msolMint marinadeState.1) (.solToLst 1162900315)).map (fun r => decide (r.min ≤ 1000000000 ∧ 1000000000 ≤ r.max)) =
      some true := by decide +kernel

end Ex
end S

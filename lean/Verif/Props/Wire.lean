import Verif.Wire
import Verif.Props.FlatFee
import Verif.Props.CalcPrograms
import Verif.Proofs.LiveCalc
import Verif.Proofs.EnvCongr
import Verif.Props.System
/-
C83: the controller and the programs it calls understand each other's bytes.
-/
set_option autoImplicit false
namespace S

/-! ### Every answer fits into the bytes it is returned in -/

theorem floorApply_u64 {L : RatioLib} {n d x r : Nat} (h : floorApply L n d x = .ok r) : r < U64 := by
  unfold floorApply at h
  split at h
  · exact L.applyDenom0_u64 _ _ _ h
  · rw [toU64_ok] at h; omega

theorem floorReverse_fits {L : RatioLib} {n d y : Nat} {r : Range} (h : floorReverse L n d y = .ok r) : r.min < U64 ∧ r.max < U64 := by
  unfold floorReverse at h
  split at h
  · have := L.reverseDegen_u64 _ _ _ _ h; omega
  · simp only [bind_ok, toU64_ok, pure_ok] at h
    obtain ⟨_, ⟨rfl, h1⟩, _, ⟨rfl, h2⟩, rfl⟩ := h
    exact ⟨h1, h2⟩

theorem flatProcess_u64 {L : RatioLib} {fc : FlatCfg} {v : FlatView fc} {F F' : FlatFee} {ms : List Acc} {q : PriceReq} {r : Nat} (hq : q.Wf)
    (h : flatProcess L v F ms q.asIx = .ok (F', some r)) : r < U64 := by
  cases q with
  | exactIn a x =>
    simp only [PriceReq.asIx, flatProcess, flatExactIn, flatPriceExactIn, mapErr_ok, bind_ok, Prod.exists, pure_ok, Prod.mk.injEq, Option.some.injEq] at h
    obtain ⟨_, ⟨_, _, _, _, _, h⟩, _, rfl⟩ := h
    exact floorApply_u64 h
  | exactOut a x =>
    simp only [PriceReq.asIx, flatProcess, flatExactOut, flatPriceExactOut, mapErr_ok, bind_ok, Prod.exists, pure_ok, Prod.mk.injEq, Option.some.injEq] at h
    obtain ⟨_, ⟨_, _, _, _, _, r, h, rfl⟩, _, rfl⟩ := h
    exact (floorReverse_fits h).2
  | lpTokensToMint a x =>
    simp only [PriceReq.asIx, flatProcess, pure_ok, Prod.mk.injEq, Option.some.injEq] at h
    obtain ⟨_, rfl⟩ := h
    exact hq.2
  | lpTokensToRedeem a x =>
    simp only [PriceReq.asIx, flatProcess, bind_ok, pure_ok, Prod.mk.injEq, Option.some.injEq] at h
    obtain ⟨_, h, _, rfl⟩ := h
    unfold flatRedeem at h
    split at h
    · simp only [bind_ok, okOr_ok, checkKeys_ok, exists_const, flatPriceRedeem, mapErr_ok, pure_ok, bpsCeilFeeApply, ceilFeeApply, subU64_ok] at h
      casesm* Exists _, And _ _
      have := hq.2
      subst_vars
      dsimp only
      omega
    · cases h
theorem ceilFeeReverse_fits {L : RatioLib} {n d y : Nat} {r : Range} (hy : y < U64) (h : ceilFeeReverse L n d y = .ok r) : r.min < U64 ∧ r.max < U64 := by
  unfold ceilFeeReverse at h
  split at h
  · cases pure_ok.1 h; exact ⟨hy, hy⟩
  · split at h
    · have := L.feeReverseFull_u64 _ _ h; omega
    · simp only [bind_ok, toU64_ok, pure_ok] at h
      obtain ⟨_, ⟨rfl, h1⟩, _, ⟨rfl, h2⟩, rfl⟩ := h
      exact ⟨h1, h2⟩

theorem AnyCalc.reply_u64 {L : RatioLib} {c : AnyCalc} {q : CalcReq} {r : Range} (hq : q.amount < U64) (h : c.reply L q = .ok r) :
    r.min < U64 ∧ r.max < U64 := by
  cases q with
  | lstToSol a =>
    change (c.calculator L).lstToSol a = .ok r at h
    cases c with
    | wsol => cases pure_ok.1 h; exact ⟨hq, hq⟩
    | lido c =>
      simp only [AnyCalc.calculator, LidoCalc.calculator, bind_ok, pure_ok] at h
      obtain ⟨_, h, rfl⟩ := h; exact ⟨floorApply_u64 h, floorApply_u64 h⟩
    | spl c =>
      simp only [AnyCalc.calculator, SplCalc.calculator, bind_ok, pure_ok] at h
      obtain ⟨_, _, _, _, _, h, rfl⟩ := h; exact ⟨floorApply_u64 h, floorApply_u64 h⟩
    | marinade c =>
      simp only [AnyCalc.calculator, MarinadeCalc.calculator, bind_ok, floorFeeApply, subU64_ok, pure_ok] at h
      obtain ⟨n, hn, _, h, _, _, _, ⟨_, ⟨rfl, hle⟩, rfl⟩, rfl⟩ := h
      have := floorApply_u64 h
      simp only [Range.single]
      omega
  | solToLst a =>
    change (c.calculator L).solToLst a = .ok r at h
    cases c with
    | wsol => cases pure_ok.1 h; exact ⟨hq, hq⟩
    | lido c => exact floorReverse_fits h
    | spl c =>
      simp only [AnyCalc.calculator, SplCalc.calculator, bind_ok, rangeNew_ok] at h
      obtain ⟨r0, e0, _, _, r1, e1, r2, e2, rfl, _⟩ := h
      have h0 := floorReverse_fits e0
      exact ⟨(ceilFeeReverse_fits h0.1 e1).1, (ceilFeeReverse_fits h0.2 e2).2⟩
    | marinade c =>
      simp only [AnyCalc.calculator, MarinadeCalc.calculator, bind_ok, rangeNew_ok] at h
      obtain ⟨_, _, r0, e0, n, hn, r1, e1, r2, e2, rfl, _⟩ := h
      exact ⟨(floorReverse_fits e1).1, (floorReverse_fits e2).2⟩

theorem calcProcess_u64 {L : RatioLib} {pc : PoolCfg} {ch : OnChain} {st st' : Option CalcState} {ms : List Acc} {q : CalcReq} {r : Range}
    (hq : q.amount < U64) (h : calcProcess L pc ch st ms q.asIx = .ok (st', some r)) : r.min < U64 ∧ r.max < U64 := by
  cases q with
  | lstToSol a =>
    simp only [CalcReq.asIx, calcProcess, bind_ok, pure_ok, Prod.mk.injEq, Option.some.injEq] at h
    obtain ⟨c, _, _, h, _, rfl⟩ := h
    exact AnyCalc.reply_u64 (c := c) (q := .lstToSol a) hq h
  | solToLst a =>
    simp only [CalcReq.asIx, calcProcess, bind_ok, pure_ok, Prod.mk.injEq, Option.some.injEq] at h
    obtain ⟨c, _, _, h, _, rfl⟩ := h
    exact AnyCalc.reply_u64 (c := c) (q := .solToLst a) hq h

theorem Reply.u64_enc {p : Pubkey} {x : Nat} (h : x < U64) : Reply.u64 (some (p, toLE 8 x)) = some x := by
  have := readLE_ok (k := 8) (buf := toLE 8 x) (n := x) (r := []) |>.2 ⟨by simpa using h, by simp⟩
  simp [Reply.u64, this, Except.toOption]

theorem Reply.range_enc {p : Pubkey} {r : Range} (h : r.min < U64 ∧ r.max < U64) : Reply.range (some (p, r.encode)) = some r := by
  have := (calc_understands (q := .lstToSol 0) (r := r) (by decide) h.1 h.2).2
  simp [Reply.range, this, Except.toOption]

/-- The flat-fee program answers every pricing request it accepts. -/
theorem flatProcess_answers {L : RatioLib} {fc : FlatCfg} {v : FlatView fc} {F F' : FlatFee} {ms : List Acc} {q : PriceReq} {a : Option Nat}
    (h : flatProcess L v F ms q.asIx = .ok (F', a)) : ∃ r, a = some r := by
  cases q <;> simp only [PriceReq.asIx, flatProcess, bind_ok, pure_ok, Prod.mk.injEq] at h <;> casesm* Exists _, And _ _ <;> subst_vars <;> exact ⟨_, rfl⟩

theorem calcProcess_answers {L : RatioLib} {pc : PoolCfg} {ch : OnChain} {st st' : Option CalcState} {ms : List Acc} {q : CalcReq} {a : Option Range}
    (h : calcProcess L pc ch st ms q.asIx = .ok (st', a)) : ∃ r, a = some r := by
  cases q <;> simp only [CalcReq.asIx, calcProcess, bind_ok, pure_ok, Prod.mk.injEq] at h <;> casesm* Exists _, And _ _ <;> subst_vars <;> exact ⟨_, rfl⟩

/-! ### C83 -/

section
variable {sc : SysCfg} {L : RatioLib} {s : Sys sc} {o : Outside sc} {p : Pubkey} {ms : List Acc}

/-- C83, pricing. When the pool's pricing program is the flat-fee or the no-fee program, what the controller reads from the bytes returned is the program's
answer to the request the controller meant, as a number, and it fails as the program does. -/
theorem C83_price (hp : p = sc.fc.programId ∨ p = sc.noFee) {q : PriceReq} (hq : q.Wf) :
    ∃ run, s.program L o p = some run ∧ ∀ n (w : World), (cpiPrice run ms q).map (·, w.led) = s.answerPrice L o n w p ms q := by
  have hd := sc.distinct
  simp only [List.nodup_cons, List.mem_cons, not_or] at hd
  obtain ⟨-, ⟨hfn, hfw, -⟩, ⟨hnw, -⟩, -⟩ := hd
  rcases hp with rfl | rfl
  · refine ⟨_, by rw [Sys.program, if_neg hfw, if_pos rfl], fun n w => ?_⟩
    simp only [cpiPrice, flatInstruction, require, if_true, flat_understands q hq, bind, Except.bind, Sys.answerPrice]
    have e : q.flat = q.asIx := by cases q <;> rfl
    rw [e]
    cases hx : flatProcess L o.view (s.flat L) ms q.asIx with
    | error e => simp [Except.map]
    | ok x =>
      obtain ⟨F', ans⟩ := x
      obtain ⟨a, rfl⟩ := flatProcess_answers hx
      simp [okOr, Reply.u64_enc (flatProcess_u64 hq hx), pure, Except.pure, Except.map]
  · refine ⟨_, by rw [Sys.program, if_neg hnw, if_neg (Ne.symm hfn), if_pos rfl], fun n w => ?_⟩
    have hv : q.value < U64 := by cases q <;> exact hq.2
    have e : q.value = q.solValue := by cases q <;> rfl
    simp only [cpiPrice, C25_no_fee q hq, bind, Except.bind, Sys.answerPrice, if_neg (Ne.symm hfn), if_true, pure, Except.pure, Reply.u64_enc hv, okOr]
    simp [e, Except.map]

/-- C83, SOL values. When an LST's calculator is one of the programs of this repository, what the controller reads from the bytes returned is the program's
answer to the conversion the controller meant, and it fails as the program does. -/
theorem C83_calc (hp : p = sc.wsolCalc ∨ ∃ pc ∈ sc.pools, pc.programId = p) {q : CalcReq} (hq : q.amount < U64) :
    ∃ run, s.program L o p = some run ∧ ∀ n (w : World), (cpiCalc run ms q).map (·, w.led) = s.answerCalc L o n w p ms q := by
  have hb : q.bytes = q.encode := by cases q <;> rfl
  have hi : q.ix = q.asIx := by cases q <;> rfl
  have hdec := (calc_understands (q := q) (r := ⟨0, 0⟩) hq (by decide) (by decide)).1
  rw [hi] at hdec
  have hd := sc.distinct
  simp only [List.nodup_cons, List.mem_cons, not_or] at hd
  obtain ⟨-, ⟨hfn, hfw, hfp⟩, ⟨hnw, hnp⟩, hwp, -⟩ := hd
  rcases hp with rfl | ⟨pc, hpc, rfl⟩
  · refine ⟨_, by rw [Sys.program, if_pos rfl], fun n w => ?_⟩
    simp only [cpiCalc, wsolInstruction, require, if_true, hb, hdec, bind, Except.bind, Sys.answerCalc, wsolAnswer]
    cases ms with
    | nil => simp [Except.map]
    | cons m ms =>
      dsimp only
      cases checkKeys [(m.key, sc.wsolMint)] with
      | error e => simp [Except.map]
      | ok u =>
        cases q with
        | lstToSol a =>
          have : Reply.range (some (sc.wsolCalc, (Range.single a).encode)) = some (Range.single a) := Reply.range_enc ⟨hq, hq⟩
          simp [CalcReq.asIx, wsolCalculator, pure, Except.pure, this, okOr, Except.map]
        | solToLst a =>
          have : Reply.range (some (sc.wsolCalc, (Range.single a).encode)) = some (Range.single a) := Reply.range_enc ⟨hq, hq⟩
          simp [CalcReq.asIx, wsolCalculator, pure, Except.pure, this, okOr, Except.map]
  · have hm : pc.programId ∈ sc.pools.map PoolCfg.programId := List.mem_map.2 ⟨pc, hpc, rfl⟩
    have h1 : pc.programId ≠ sc.wsolCalc := fun h => hwp (h ▸ hm)
    have h2 : pc.programId ≠ sc.fc.programId := fun h => hfp (h ▸ hm)
    have h3 : pc.programId ≠ sc.noFee := fun h => hnp (h ▸ hm)
    cases hf : sc.pools.find? (fun pc' => pc'.programId = pc.programId) with
    | none => simp only [List.find?_eq_none] at hf; exact absurd (by simp) (hf pc hpc)
    | some pc' =>
      have hid : pc.programId = pc'.programId := by have := List.find?_some hf; simpa using (of_decide_eq_true this).symm
      refine ⟨_, by rw [Sys.program, if_neg h1, if_neg h2, if_neg h3, hf, Option.map_some], fun n w => ?_⟩
      simp only [cpiCalc, calcInstruction, require, if_pos hid, hb, hdec, bind, Except.bind, Sys.answerCalc, if_neg h1, hf]
      cases hx : calcProcess L pc' o.chain (s.calc L pc') ms q.asIx with
      | error e => simp [Except.map]
      | ok x =>
        obtain ⟨st', ans⟩ := x
        obtain ⟨a, rfl⟩ := calcProcess_answers hx
        simp [okOr, Reply.range_enc (calcProcess_u64 hq hx), pure, Except.pure, Except.map]

theorem wire_agree : (s.env L o).Agree (s.wireEnv L o) where
  calcs n w p ms q hq := by
    show s.answerCalc L o n w p ms q = (if _ then _ else _)
    split
    · rename_i hp
      obtain ⟨run, hr, h⟩ := C83_calc (s := s) (L := L) (o := o) (ms := ms) hp hq
      rw [hr, ← h n w]
    · rename_i hp
      simp only [not_or] at hp
      rw [Sys.answerCalc, if_neg hp.1, List.find?_eq_none.2 (fun pc hpc => by
        simp only [decide_eq_true_eq]; exact fun h => hp.2 ⟨pc, hpc, h⟩)]
  prices n w p ms q hq := by
    show s.answerPrice L o n w p ms q = (if _ then _ else _)
    split
    · rename_i hp
      obtain ⟨run, hr, h⟩ := C83_price (s := s) (L := L) (o := o) (ms := ms) hp hq
      rw [hr, ← h n w]
    · rename_i hp
      simp only [not_or] at hp
      rw [Sys.answerPrice, if_neg hp.1, if_neg hp.2]

/-- C83. In every state the programs can get into, an instruction of the controller has the same outcome whether the programs it calls exchange numbers with it or
the bytes actually sent: nothing is lost, cut off or misread on the way. -/
theorem C83_instruction (hr : Reachable sc.cfg L s.world) {tx : TxInfo} {pid : Pubkey} {accs : List Acc} {data : List UInt8} :
    processInstruction sc.cfg L (s.wireEnv L o) tx s.world pid accs data = processInstruction sc.cfg L (s.env L o) tx s.world pid accs data :=
  (processInstruction_agree wire_agree hr.inv.wf).symm
end

/-- C83. A pricing program, of whoever, that returns nothing or less than eight bytes makes the instruction fail as faulty; otherwise the price is the first eight
bytes, little-endian. -/
theorem C83_faulty_price {run : List Acc → List UInt8 → R Reply} {ms : List Acc} {q : PriceReq} {reply : Reply} (h : run ms q.encode = .ok reply) :
    (cpiPrice run ms q = .error .faultyPricingProgram ↔ ∀ p b, reply = some (p, b) → b.length < 8) ∧
    (∀ r, cpiPrice run ms q = .ok r ↔ ∃ p b rest, reply = some (p, b) ∧ r < U64 ∧ b = toLE 8 r ++ rest) := by
  simp only [cpiPrice, h, bind, Except.bind]
  cases reply with
  | none => simp [Reply.u64, okOr]
  | some x =>
    obtain ⟨p, b⟩ := x
    cases hb : readLE 8 b with
    | error e =>
      simp only [Reply.u64, hb, Except.toOption, Option.map_none, okOr, true_iff, Option.some.injEq, Prod.mk.injEq]
      constructor
      · rintro p' b' ⟨rfl, rfl⟩
        by_contra hl
        have : ∃ n r, readLE 8 b = .ok (n, r) := by
          unfold readLE; rw [if_pos (by omega)]; exact ⟨_, _, rfl⟩
        obtain ⟨n, r, h⟩ := this
        rw [hb] at h; cases h
      · intro r
        constructor
        · intro h; cases h
        · rintro ⟨p', b', rest, ⟨rfl, rfl⟩, hr, rfl⟩
          rw [readLE_ok.2 ⟨by simpa using hr, rfl⟩] at hb; cases hb
    | ok x =>
      obtain ⟨n, rest⟩ := x
      obtain ⟨hn, rfl⟩ := readLE_ok.1 hb
      simp only [Reply.u64, hb, Except.toOption, Option.map_some, okOr, Except.ok.injEq, Option.some.injEq, Prod.mk.injEq]
      constructor
      · constructor
        · intro h; cases h
        · intro h; have := h p _ ⟨rfl, rfl⟩; rw [List.length_append, toLE_length] at this; omega
      · intro r
        constructor
        · rintro rfl; exact ⟨p, _, rest, ⟨rfl, rfl⟩, by simpa using hn, rfl⟩
        · rintro ⟨p', b', rest', ⟨rfl, rfl⟩, hr, h⟩
          have := readLE_ok.2 (⟨by simpa using hr, h⟩ : r < 256 ^ 8 ∧ _)
          rw [hb] at this; injection this with this; injection this

/-- C83. A calculator that returns nothing or less than sixteen bytes makes the instruction fail as faulty; otherwise the range is the first sixteen bytes: the
minimum and the maximum, little-endian. -/
theorem C83_faulty_calc {run : List Acc → List UInt8 → R Reply} {ms : List Acc} {q : CalcReq} {reply : Reply} (h : run ms q.bytes = .ok reply) :
    (cpiCalc run ms q = .error .faultySolValueCalculator ↔ ∀ p b, reply = some (p, b) → b.length < 16) ∧
    (∀ r, cpiCalc run ms q = .ok r ↔
      ∃ p b rest, reply = some (p, b) ∧ r.min < U64 ∧ r.max < U64 ∧ b = toLE 8 r.min ++ (toLE 8 r.max ++ rest)) := by
  have key : ∀ (b : List UInt8) (r : Range), decodeRange b = .ok r ↔ r.min < U64 ∧ r.max < U64 ∧ ∃ rest, b = toLE 8 r.min ++ (toLE 8 r.max ++ rest) := by
    intro b r
    simp only [decodeRange, decodeRange.readTwo8, bind_ok, Prod.exists, readLE_ok, pure_ok, Prod.mk.injEq]
    constructor
    · rintro ⟨x, y, ⟨_, _, ⟨h1, rfl⟩, _, rest, ⟨h2, rfl⟩, rfl, rfl⟩, rfl⟩
      exact ⟨by simpa using h1, by simpa using h2, rest, rfl⟩
    · rintro ⟨h1, h2, rest, rfl⟩
      exact ⟨r.min, r.max, ⟨r.min, _, ⟨by simpa using h1, rfl⟩, r.max, rest, ⟨by simpa using h2, rfl⟩, rfl, rfl⟩, rfl⟩
  simp only [cpiCalc, h, bind, Except.bind]
  cases reply with
  | none => simp [Reply.range, okOr]
  | some x =>
    obtain ⟨p, b⟩ := x
    cases hb : decodeRange b with
    | error e =>
      simp only [Reply.range, hb, Except.toOption, okOr, true_iff, Option.some.injEq, Prod.mk.injEq]
      constructor
      · rintro p' b' ⟨rfl, rfl⟩
        by_contra hl
        have h1 : readLE 8 b = .ok (ofLE (List.take 8 b), List.drop 8 b) := by unfold readLE; rw [if_pos (by omega)]
        have h2 : readLE 8 (List.drop 8 b) = .ok (ofLE (List.take 8 (List.drop 8 b)), List.drop 8 (List.drop 8 b)) := by
          unfold readLE; rw [if_pos (by rw [List.length_drop]; omega)]
        rw [decodeRange, decodeRange.readTwo8] at hb
        simp only [h1, h2, bind, Except.bind, pure, Except.pure] at hb
        cases hb
      · intro r
        constructor
        · intro h; cases h
        · rintro ⟨p', b', rest, ⟨rfl, rfl⟩, h1, h2, hr⟩
          rw [(key b r).2 ⟨h1, h2, rest, hr⟩] at hb; cases hb
    | ok x =>
      obtain ⟨h1, h2, rest, rfl⟩ := (key b x).1 hb
      simp only [Reply.range, hb, Except.toOption, okOr, Except.ok.injEq, Option.some.injEq, Prod.mk.injEq]
      constructor
      · constructor
        · intro h; cases h
        · intro h; have := h p _ ⟨rfl, rfl⟩; rw [List.length_append, List.length_append, toLE_length, toLE_length] at this; omega
      · intro r
        constructor
        · rintro rfl; exact ⟨p, _, rest, ⟨rfl, rfl⟩, h1, h2, rfl⟩
        · rintro ⟨p', b', rest', ⟨rfl, rfl⟩, h1', h2', h⟩
          have := (key _ r).2 ⟨h1', h2', rest', h⟩
          rw [hb] at this; injection this

/-! ### A concrete case: the deployed system after its twenty transactions -/

namespace Ex

-- The bytes on the wire, and what the controller makes of them: the Lido-style calculator at 3/2, the flat-fee program on 30 + (−10) bps.
example : (((sysAt 20).program .ex (outside 0 5000) 32).map fun run =>
      ((run (ro 22 :: lidoAccs.tail) (CalcReq.bytes (.lstToSol 100))).toOption, (cpiCalc run (ro 22 :: lidoAccs.tail) (.lstToSol 100)).toOption)) =
    some (some (some (32, [150, 0, 0, 0, 0, 0, 0, 0, 150, 0, 0, 0, 0, 0, 0, 0])), some ⟨150, 150⟩) := by decide +kernel

/-- The accounts of a call of the flat-fee program to price a swap of LST 21 for LST 22. -/
def priceAccs : List Acc := [ro 21, ro 22, ro 1021, ro 1022]

example : (((sysAt 20).program .ex (outside 0 5000) 7).map fun run =>
      ((run priceAccs (PriceReq.encode (.exactIn 700 100000))).toOption, (cpiPrice run priceAccs (.exactIn 700 100000)).toOption)) =
    some (some (some (7, [216, 133, 1, 0, 0, 0, 0, 0])), some 99800) := by decide +kernel

-- The hypotheses of the theorems hold there.
example := C83_price (s := sysAt 20) (L := .ex) (o := outside 0 5000) (ms := priceAccs) (p := 7) (.inl rfl) (q := .exactIn 700 100000) ⟨by decide, by decide⟩
example := C83_calc (s := sysAt 20) (L := .ex) (o := outside 0 5000) (ms := ro 22 :: lidoAccs.tail) (p := 32)
  (.inr ⟨jup.lido, by simp [sysc], rfl⟩) (q := .lstToSol 100) (by decide)
example := @C83_instruction sysc .ex (sysAt 20) (outside 0 5000) (sysAt_fresh 20)

-- The eighteenth transaction, a swap that calls both kinds of program, succeeds with the bytes exchanged.
example : (processInstruction cfg .ex ((sysAt 17).wireEnv .ex (outside 0 5000)) ⟨[], 0⟩ (sysAt 17).world 13 sysSwap
    (Ix.swapExactIn ⟨1, 5, 0, 1, 10, 3000⟩).encode).toOption.isSome = true := by decide +kernel
-- A program that answers with nothing, or with too little, is faulty.
example : cpiPrice (fun _ _ => .ok none) [] (.exactIn 1 1) = .error .faultyPricingProgram ∧
    cpiPrice (fun _ _ => .ok (some (7, [1, 2, 3]))) [] (.exactIn 1 1) = .error .faultyPricingProgram ∧
    cpiCalc (fun _ _ => .ok (some (7, [1, 0, 0, 0, 0, 0, 0, 0]))) [] (.lstToSol 1) = .error .faultySolValueCalculator := by decide +kernel
end Ex
end S

import Verif.Proofs.CtlStep
/-
What ledger operations do to accounts and mints.
-/
set_option autoImplicit false
namespace S

structure TransferFacts (l : Ledger) (t : TransferAccs) (n : Nat) (l' : Ledger) (m : Mint) (a b : TokenAcc) :
    Prop where
  mint : l.mints t.mint = some m
  mprog : m.program = t.tokenProgram
  src : l.tok t.src = some a
  dst : l.tok t.dst = some b
  aprog : a.program = t.tokenProgram
  bprog : b.program = t.tokenProgram
  amint : a.mint = t.mint
  bmint : b.mint = t.mint
  owner : a.owner = t.authority
  enough : n ≤ a.amount
  eq : (t.src = t.dst ∧ l' = l) ∨ (t.src ≠ t.dst ∧ b.amount + n < U64 ∧
    l' = (l.setTok t.src (some { a with amount := a.amount - n })).setTok t.dst
      (some { b with amount := b.amount + n }))

theorem transfer_ok {l : Ledger} {t : TransferAccs} {n : Nat} {l' : Ledger} :
    transfer l t n = .ok l' ↔ ∃ m a b, TransferFacts l t n l' m a b := by
  simp only [transfer, bind_ok, okOr_ok, require_ok, exists_const]
  constructor
  · rintro ⟨m, hm, hp, a, ha, b, hb, ⟨h1, h2⟩, ⟨h3, h4⟩, h5, h6, h7⟩
    refine ⟨m, a, b, hm, hp, ha, hb, h1, h2, h3, h4, h5, h6, ?_⟩
    split at h7
    · rename_i he; rw [pure_ok] at h7; exact .inl ⟨he, h7.symm⟩
    · rename_i he
      simp only [bind_ok, addU64_ok, pure_ok] at h7
      obtain ⟨x, ⟨rfl, hx⟩, rfl⟩ := h7
      exact .inr ⟨he, hx, rfl⟩
  · rintro ⟨m, a, b, hm, hp, ha, hb, h1, h2, h3, h4, h5, h6, h7⟩
    refine ⟨m, hm, hp, a, ha, b, hb, ⟨h1, h2⟩, ⟨h3, h4⟩, h5, h6, ?_⟩
    rcases h7 with ⟨he, rfl⟩ | ⟨he, hx, rfl⟩
    · rw [if_pos he]; rfl
    · rw [if_neg he]; simp only [bind_ok, addU64_ok, pure_ok]; exact ⟨_, ⟨rfl, hx⟩, rfl⟩

structure MintFacts (l : Ledger) (mint dst tp auth : Pubkey) (n : Nat) (l' : Ledger) (m : Mint) (b : TokenAcc) :
    Prop where
  hmint : l.mints mint = some m
  hdst : l.tok dst = some b
  mprog : m.program = tp
  bprog : b.program = tp
  bmint : b.mint = mint
  auth_eq : m.mintAuth = some auth
  fits : b.amount + n < U64
  sfits : m.supply + n < U64
  eq : l' = (l.setTok dst (some { b with amount := b.amount + n })).setMint mint (some { m with supply := m.supply + n })

theorem mintTo_ok {l : Ledger} {mint dst tp auth : Pubkey} {n : Nat} {l' : Ledger} :
    mintTo l mint dst tp auth n = .ok l' ↔ ∃ m b, MintFacts l mint dst tp auth n l' m b := by
  simp only [mintTo, bind_ok, okOr_ok, require_ok, exists_const, addU64_ok, pure_ok]
  constructor
  · rintro ⟨m, hm, b, hb, ⟨h1, h2⟩, h3, h4, x, ⟨rfl, h5⟩, y, ⟨rfl, h6⟩, rfl⟩
    exact ⟨m, b, hm, hb, h1, h2, h3, h4, h5, h6, rfl⟩
  · rintro ⟨m, b, hm, hb, h1, h2, h3, h4, h5, h6, rfl⟩
    exact ⟨m, hm, b, hb, ⟨h1, h2⟩, h3, h4, _, ⟨rfl, h5⟩, _, ⟨rfl, h6⟩, rfl⟩

structure BurnFacts (l : Ledger) (mint src tp auth : Pubkey) (n : Nat) (l' : Ledger) (m : Mint) (a : TokenAcc) :
    Prop where
  hmint : l.mints mint = some m
  hsrc : l.tok src = some a
  mprog : m.program = tp
  aprog : a.program = tp
  amint : a.mint = mint
  owner : a.owner = auth
  enough : n ≤ a.amount
  senough : n ≤ m.supply
  eq : l' = (l.setTok src (some { a with amount := a.amount - n })).setMint mint (some { m with supply := m.supply - n })

theorem burn_ok {l : Ledger} {mint src tp auth : Pubkey} {n : Nat} {l' : Ledger} :
    burn l mint src tp auth n = .ok l' ↔ ∃ m a, BurnFacts l mint src tp auth n l' m a := by
  simp only [burn, bind_ok, okOr_ok, require_ok, exists_const, subU64_ok, pure_ok]
  constructor
  · rintro ⟨m, hm, a, ha, ⟨h1, h2⟩, h3, h4, h5, y, ⟨rfl, h6⟩, rfl⟩
    exact ⟨m, a, hm, ha, h1, h2, h3, h4, h5, h6, rfl⟩
  · rintro ⟨m, a, hm, ha, h1, h2, h3, h4, h5, h6, rfl⟩
    exact ⟨m, hm, a, ha, ⟨h1, h2⟩, h3, h4, h5, _, ⟨rfl, h6⟩, rfl⟩

theorem closeToken_ok {l : Ledger} {k tp auth : Pubkey} {l' : Ledger} :
    closeToken l k tp auth = .ok l' ↔ ∃ a, l.tok k = some a ∧ a.program = tp ∧ a.owner = auth ∧ a.amount = 0 ∧
      l' = l.setTok k none := by
  simp only [closeToken, bind_ok, okOr_ok, require_ok, exists_const, pure_ok]
  constructor
  · rintro ⟨a, h1, h2, h3, h4, rfl⟩; exact ⟨a, h1, h2, h3, h4, rfl⟩
  · rintro ⟨a, h1, h2, h3, h4, rfl⟩; exact ⟨a, h1, h2, h3, h4, rfl⟩

theorem setMintAuth_ok {l : Ledger} {k tp auth new : Pubkey} {l' : Ledger} :
    setMintAuth l k tp auth new = .ok l' ↔ ∃ m, l.mints k = some m ∧ m.program = tp ∧ m.mintAuth = some auth ∧
      l' = l.setMint k (some { m with mintAuth := some new }) := by
  simp only [setMintAuth, bind_ok, okOr_ok, require_ok, exists_const, pure_ok]
  constructor
  · rintro ⟨a, h1, h2, h3, rfl⟩; exact ⟨a, h1, h2, h3, rfl⟩
  · rintro ⟨a, h1, h2, h3, rfl⟩; exact ⟨a, h1, h2, h3, rfl⟩

theorem setFreezeAuth_ok {l : Ledger} {k tp auth new : Pubkey} {l' : Ledger} :
    setFreezeAuth l k tp auth new = .ok l' ↔ ∃ m, l.mints k = some m ∧ m.program = tp ∧ m.freezeAuth = some auth ∧
      l' = l.setMint k (some { m with freezeAuth := some new }) := by
  simp only [setFreezeAuth, bind_ok, okOr_ok, require_ok, exists_const, pure_ok]
  constructor
  · rintro ⟨a, h1, h2, h3, rfl⟩; exact ⟨a, h1, h2, h3, rfl⟩
  · rintro ⟨a, h1, h2, h3, rfl⟩; exact ⟨a, h1, h2, h3, rfl⟩

theorem createAta_ok {cfg : Cfg} {l : Ledger} {k wa tp m : Pubkey} {l' : Ledger} :
    createAta cfg l k wa tp m = .ok l' ↔ k = (cfg.findAta wa tp m).1 ∧ l.tok k = none ∧
      (∃ mt, l.mints m = some mt ∧ mt.program = tp) ∧ l' = l.setTok k (some ⟨tp, m, wa, 0⟩) := by
  simp only [createAta, bind_ok, okOr_ok, require_ok, exists_const, pure_ok]
  constructor
  · rintro ⟨h1, h2, mt, h3, h4, rfl⟩; exact ⟨h1, h2, ⟨mt, h3, h4⟩, rfl⟩
  · rintro ⟨h1, h2, ⟨mt, h3, h4⟩, rfl⟩; exact ⟨h1, h2, mt, h3, h4, rfl⟩

@[simp] theorem setTok_tok (l : Ledger) (k : Pubkey) (a : Option TokenAcc) : (l.setTok k a).tok = upd l.tok k a := rfl
@[simp] theorem setTok_mints (l : Ledger) (k : Pubkey) (a : Option TokenAcc) : (l.setTok k a).mints = l.mints := rfl
@[simp] theorem setTok_exec (l : Ledger) (k : Pubkey) (a : Option TokenAcc) : (l.setTok k a).exec = l.exec := rfl
@[simp] theorem setMint_tok (l : Ledger) (k : Pubkey) (m : Option Mint) : (l.setMint k m).tok = l.tok := rfl
@[simp] theorem setMint_mints (l : Ledger) (k : Pubkey) (m : Option Mint) : (l.setMint k m).mints = upd l.mints k m := rfl
@[simp] theorem setMint_exec (l : Ledger) (k : Pubkey) (m : Option Mint) : (l.setMint k m).exec = l.exec := rfl

/-- Balance after a transfer, account by account. -/
theorem TransferFacts.tok {l : Ledger} {t : TransferAccs} {n : Nat} {l' : Ledger} {m : Mint} {a b : TokenAcc}
    (h : TransferFacts l t n l' m a b) (k : Pubkey) :
    l'.tok k = if t.src = t.dst then l.tok k
      else if k = t.dst then some { b with amount := b.amount + n }
      else if k = t.src then some { a with amount := a.amount - n }
      else l.tok k := by
  rcases h.eq with ⟨he, rfl⟩ | ⟨he, _, rfl⟩
  · rw [if_pos he]
  · rw [if_neg he]; rfl

theorem TransferFacts.mints {l : Ledger} {t : TransferAccs} {n : Nat} {l' : Ledger} {m : Mint} {a b : TokenAcc}
    (h : TransferFacts l t n l' m a b) : l'.mints = l.mints := by
  rcases h.eq with ⟨_, rfl⟩ | ⟨_, _, rfl⟩ <;> rfl

theorem TransferFacts.exec {l : Ledger} {t : TransferAccs} {n : Nat} {l' : Ledger} {m : Mint} {a b : TokenAcc}
    (h : TransferFacts l t n l' m a b) : l'.exec = l.exec := by
  rcases h.eq with ⟨_, rfl⟩ | ⟨_, _, rfl⟩ <;> rfl

/-- Owner is one of the controller's PDAs. -/
def Ctrl (cfg : Cfg) (o : Pubkey) : Prop := o = cfg.poolState ∨ o = cfg.protocolFee

/-- An operation that takes `n` tokens out of account `k` of owner `o`. -/
def LedOp.Debits (op : LedOp) (k o : Pubkey) (n : Nat) : Prop :=
  (∃ t, op = .transfer t n ∧ t.src = k ∧ t.authority = o) ∨ (∃ m tp, op = .burn m k tp o n)

/-- A token account controlled by the controller's PDAs, across one ledger operation. -/
theorem LedOp.Run.tok {cfg : Cfg} {l l' : Ledger} {op : LedOp} (h : op.Run cfg l l') {k : Pubkey} {a : TokenAcc}
    (hk : l.tok k = some a) (hc : Ctrl cfg a.owner) (hn : ∀ tp o, op ≠ .close k tp o) :
    ∃ n, l'.tok k = some { a with amount := n } ∧
      (n < a.amount → ∃ x, op.Debits k a.owner x ∧ n + x = a.amount) := by
  cases op with
  | ext =>
    obtain ⟨n, hle, hn⟩ := Ledger.ExtOk.tok h k a hk hc
    exact ⟨n, hn, fun hlt => absurd hle (by omega)⟩
  | transfer t x =>
    obtain ⟨m, sa, da, hf⟩ := transfer_ok.1 h
    have ht := hf.tok k
    by_cases he : t.src = t.dst
    · rw [if_pos he, hk] at ht; exact ⟨a.amount, ht, fun hlt => absurd hlt (by omega)⟩
    · rw [if_neg he] at ht
      by_cases h1 : k = t.dst
      · subst h1
        rw [if_pos rfl] at ht
        have := hf.dst; rw [hk] at this; injection this with this; subst this
        exact ⟨_, ht, fun hlt => absurd hlt (by omega)⟩
      · rw [if_neg h1] at ht
        by_cases h2 : k = t.src
        · subst h2
          rw [if_pos rfl] at ht
          have hs := hf.src; rw [hk] at hs; injection hs with hs; subst hs
          have := hf.enough
          exact ⟨_, ht, fun _ => ⟨x, .inl ⟨t, rfl, rfl, hf.owner.symm⟩, by omega⟩⟩
        · rw [if_neg h2, hk] at ht; exact ⟨a.amount, ht, fun hlt => absurd hlt (by omega)⟩
  | mintTo mt d tp au x =>
    obtain ⟨m, b, hf⟩ := mintTo_ok.1 h
    rw [hf.eq]
    by_cases hd : k = d
    · subst hd
      have := hf.hdst; rw [hk] at this; injection this with this; subst this
      exact ⟨a.amount + x, by simp, fun hlt => absurd hlt (by omega)⟩
    · exact ⟨a.amount, by simp [upd_ne _ _ hd, hk], fun hlt => absurd hlt (by omega)⟩
  | burn mt s tp au x =>
    obtain ⟨m, b, hf⟩ := burn_ok.1 h
    rw [hf.eq]
    by_cases hd : k = s
    · subst hd
      have hs := hf.hsrc; rw [hk] at hs; injection hs with hs; subst hs
      have := hf.enough
      exact ⟨a.amount - x, by simp, fun _ => ⟨x, .inr ⟨mt, tp, by rw [hf.owner]⟩, by omega⟩⟩
    · exact ⟨a.amount, by simp [upd_ne _ _ hd, hk], fun hlt => absurd hlt (by omega)⟩
  | close kk tp au =>
    obtain ⟨b, hb, _, _, _, rfl⟩ := closeToken_ok.1 h
    have hne : k ≠ kk := by rintro rfl; exact hn tp au rfl
    exact ⟨a.amount, by simp [upd_ne _ _ hne, hk], fun hlt => absurd hlt (by omega)⟩
  | setMintAuth mt tp au nw =>
    obtain ⟨m, _, _, _, rfl⟩ := setMintAuth_ok.1 h
    exact ⟨a.amount, hk, fun hlt => absurd hlt (by omega)⟩
  | setFreezeAuth mt tp au nw =>
    obtain ⟨m, _, _, _, rfl⟩ := setFreezeAuth_ok.1 h
    exact ⟨a.amount, hk, fun hlt => absurd hlt (by omega)⟩
  | createAta kk wa tp mt =>
    obtain ⟨rfl, hnone, _, rfl⟩ := createAta_ok.1 h
    have hne : k ≠ (cfg.findAta wa tp mt).1 := by rintro rfl; rw [hk] at hnone; cases hnone
    exact ⟨a.amount, by simp [upd_ne _ _ hne, hk], fun hlt => absurd hlt (by omega)⟩

/-- The same across a trace: the account keeps its identity, and loses tokens only by debits. -/
theorem TraceE.tok {cfg : Cfg} {l l' : Ledger} {ops : List LedOp} (h : Trace cfg l ops l') {k : Pubkey} {a : TokenAcc}
    (hk : l.tok k = some a) (hc : Ctrl cfg a.owner) (hn : ∀ op ∈ ops, ∀ tp o, op ≠ .close k tp o) :
    ∃ n, l'.tok k = some { a with amount := n } ∧
      (n < a.amount → ∃ op ∈ ops, ∃ x, 0 < x ∧ op.Debits k a.owner x) := by
  induction h generalizing a with
  | nil => exact ⟨a.amount, hk, fun h => absurd h (by omega)⟩
  | cons h _ ih =>
    rw [List.forall_mem_cons] at hn
    obtain ⟨n, hn1, hn2⟩ := LedOp.Run.tok h hk hc hn.1
    obtain ⟨n', hn1', hn2'⟩ := ih hn1 hc hn.2
    refine ⟨n', hn1', fun hlt => ?_⟩
    by_cases hlt1 : n < a.amount
    · obtain ⟨x, hx, he⟩ := hn2 hlt1
      exact ⟨_, List.mem_cons_self .., x, by omega, hx⟩
    · obtain ⟨op, ho, hx⟩ := hn2' (by simp; omega)
      exact ⟨op, List.mem_cons_of_mem _ ho, hx⟩

/-- Well-formedness is kept by every ledger operation. -/
theorem LedOp.Run.wf {cfg : Cfg} {l l' : Ledger} {op : LedOp} (h : op.Run cfg l l') (hw : l.Wf cfg) : l'.Wf cfg := by
  have keep : ∀ {k : Pubkey} {a : TokenAcc} {x : Nat}, l.tok k = some a → x < U64 →
      (l.setTok k (some { a with amount := x })).Wf cfg := by
    intro k a x hk hx
    refine ⟨?_, hw.mint_u64, ?_⟩
    · intro k' a' h'
      by_cases he : k' = k
      · subst he; simp at h'; subst h'; exact hx
      · simp [upd_ne _ _ he] at h'; exact hw.tok_u64 k' a' h'
    · intro w p m b k' a' h1 h'
      by_cases he : k' = k
      · subst he; simp at h'; subst h'; exact hw.ata w p m b k' a h1 hk
      · simp [upd_ne _ _ he] at h'; exact hw.ata w p m b k' a' h1 h'
  have keepM : ∀ {l : Ledger} {k : Pubkey} {m : Mint}, l.Wf cfg → m.supply < U64 → (l.setMint k (some m)).Wf cfg := by
    intro l k m hw hx
    refine ⟨hw.tok_u64, ?_, hw.ata⟩
    intro k' m' h'
    by_cases he : k' = k
    · subst he; simp at h'; subst h'; exact hx
    · simp [upd_ne _ _ he] at h'; exact hw.mint_u64 k' m' h'
  cases op with
  | ext => exact Ledger.ExtOk.wf h hw
  | transfer t x =>
    obtain ⟨m, sa, da, hf⟩ := transfer_ok.1 h
    have e1 := hw.tok_u64 _ _ hf.src
    have e2 := hw.tok_u64 _ _ hf.dst
    refine ⟨?_, by rw [hf.mints]; exact hw.mint_u64, ?_⟩
    · intro k a ha
      rw [hf.tok] at ha
      split at ha
      · exact hw.tok_u64 k a ha
      · rename_i hne
        have hfit : da.amount + x < U64 := by
          rcases hf.eq with ⟨e, _⟩ | ⟨_, e, _⟩
          · exact absurd e hne
          · exact e
        split at ha
        · injection ha with ha; subst ha; exact hfit
        · split at ha
          · injection ha with ha; subst ha; simp; omega
          · exact hw.tok_u64 k a ha
    · intro w p m' b k a hat ha
      rw [hf.tok] at ha
      split at ha
      · exact hw.ata w p m' b k a hat ha
      · split at ha
        · rename_i hk; subst hk; injection ha with ha; subst ha; exact hw.ata w p m' b _ da hat hf.dst
        · split at ha
          · rename_i hk; subst hk; injection ha with ha; subst ha; exact hw.ata w p m' b _ sa hat hf.src
          · exact hw.ata w p m' b k a hat ha
  | mintTo mt d tp au x =>
    obtain ⟨m, b, hf⟩ := mintTo_ok.1 h
    rw [hf.eq]; exact keepM (keep hf.hdst hf.fits) hf.sfits
  | burn mt s tp au x =>
    obtain ⟨m, b, hf⟩ := burn_ok.1 h
    have e1 := hw.tok_u64 _ _ hf.hsrc
    have e2 := hw.mint_u64 _ _ hf.hmint
    rw [hf.eq]; exact keepM (keep hf.hsrc (by omega)) (by simp; omega)
  | close kk tp au =>
    obtain ⟨b, hb, _, _, _, rfl⟩ := closeToken_ok.1 h
    refine ⟨?_, hw.mint_u64, ?_⟩
    · intro k a ha
      by_cases he : k = kk
      · subst he; simp at ha
      · simp [upd_ne _ _ he] at ha; exact hw.tok_u64 k a ha
    · intro w p m b k a h1 ha
      by_cases he : k = kk
      · subst he; simp at ha
      · simp [upd_ne _ _ he] at ha; exact hw.ata w p m b k a h1 ha
  | setMintAuth mt tp au nw =>
    obtain ⟨m, hm, _, _, rfl⟩ := setMintAuth_ok.1 h
    exact keepM hw (hw.mint_u64 mt m hm)
  | setFreezeAuth mt tp au nw =>
    obtain ⟨m, hm, _, _, rfl⟩ := setFreezeAuth_ok.1 h
    exact keepM hw (hw.mint_u64 mt m hm)
  | createAta kk wa tp mt =>
    obtain ⟨rfl, hnone, _, rfl⟩ := createAta_ok.1 h
    refine ⟨?_, hw.mint_u64, ?_⟩
    · intro k a ha
      by_cases he : k = (cfg.findAta wa tp mt).1
      · subst he; simp at ha; subst ha; simp
      · simp [upd_ne _ _ he] at ha; exact hw.tok_u64 k a ha
    · intro w p m b k a h1 ha
      by_cases he : k = (cfg.findAta wa tp mt).1
      · subst he; simp at ha; subst ha
        obtain ⟨_, rfl, rfl⟩ := cfg.ata_inj h1 (cfg.findAta_ata wa tp mt)
        exact ⟨rfl, rfl⟩
      · simp [upd_ne _ _ he] at ha; exact hw.ata w p m b k a h1 ha

theorem TraceE.wf {cfg : Cfg} {l l' : Ledger} {ops : List LedOp} (h : Trace cfg l ops l') (hw : l.Wf cfg) :
    l'.Wf cfg := by
  induction h with
  | nil => exact hw
  | cons h _ ih => exact ih (LedOp.Run.wf h hw)

/-- How a mint can change across one ledger operation. -/
theorem LedOp.Run.mint {cfg : Cfg} {l l' : Ledger} {op : LedOp} (h : op.Run cfg l l') {k : Pubkey} {m : Mint}
    (hk : l.mints k = some m) :
    ∃ m', l'.mints k = some m' ∧ m'.program = m.program ∧ m'.decimals = m.decimals ∧
      (m.mintAuth = some cfg.poolState → (∀ tp new, op ≠ .setMintAuth k tp cfg.poolState new) →
        m'.mintAuth = some cfg.poolState ∧
        (m.supply < m'.supply → ∃ d tp x, op = .mintTo k d tp cfg.poolState x ∧ m'.supply = m.supply + x)) ∧
      (m.freezeAuth = some cfg.poolState → (∀ tp new, op ≠ .setFreezeAuth k tp cfg.poolState new) →
        m'.freezeAuth = some cfg.poolState) := by
  cases op with
  | ext =>
    obtain ⟨m', h1, h2, h3⟩ := Ledger.ExtOk.mint h k m hk
    refine ⟨m', h1, h2, h3, fun ha _ => ?_, fun ha _ => Ledger.ExtOk.freezeAuth h k m m' hk h1 ha⟩
    obtain ⟨e1, e2⟩ := Ledger.ExtOk.mintAuth h k m m' hk h1 ha
    exact ⟨e1, fun hlt => absurd e2 (by omega)⟩
  | transfer t x =>
    obtain ⟨_, sa, da, hf⟩ := transfer_ok.1 h
    exact ⟨m, by rw [hf.mints]; exact hk, rfl, rfl, fun ha _ => ⟨ha, fun hlt => absurd hlt (by omega)⟩, fun ha _ => ha⟩
  | mintTo mt d tp au x =>
    obtain ⟨m0, b, hf⟩ := mintTo_ok.1 h
    rw [hf.eq]
    by_cases hd : k = mt
    · subst hd
      have := hf.hmint; rw [hk] at this; injection this with this; subst this
      refine ⟨{ m with supply := m.supply + x }, by simp, rfl, rfl, fun ha _ => ⟨ha, fun _ => ?_⟩, fun ha _ => ha⟩
      have hau := hf.auth_eq
      rw [ha] at hau; injection hau with hau; subst hau
      exact ⟨d, tp, x, rfl, rfl⟩
    · exact ⟨m, by simp [upd_ne _ _ hd, hk], rfl, rfl, fun ha _ => ⟨ha, fun hlt => absurd hlt (by omega)⟩, fun ha _ => ha⟩
  | burn mt s tp au x =>
    obtain ⟨m0, b, hf⟩ := burn_ok.1 h
    rw [hf.eq]
    by_cases hd : k = mt
    · subst hd
      have := hf.hmint; rw [hk] at this; injection this with this; subst this
      exact ⟨{ m with supply := m.supply - x }, by simp, rfl, rfl, fun ha _ => ⟨ha, fun hlt => absurd hlt (by simp)⟩,
        fun ha _ => ha⟩
    · exact ⟨m, by simp [upd_ne _ _ hd, hk], rfl, rfl, fun ha _ => ⟨ha, fun hlt => absurd hlt (by omega)⟩, fun ha _ => ha⟩
  | close kk tp au =>
    obtain ⟨b, hb, _, _, _, rfl⟩ := closeToken_ok.1 h
    exact ⟨m, hk, rfl, rfl, fun ha _ => ⟨ha, fun hlt => absurd hlt (by omega)⟩, fun ha _ => ha⟩
  | setMintAuth mt tp au nw =>
    obtain ⟨m0, hm, _, hau, rfl⟩ := setMintAuth_ok.1 h
    by_cases hd : k = mt
    · subst hd
      rw [hk] at hm; injection hm with hm; subst hm
      refine ⟨{ m with mintAuth := some nw }, by simp, rfl, rfl, fun ha hne => ?_, fun ha _ => ha⟩
      rw [ha] at hau; injection hau with hau; subst hau
      exact absurd rfl (hne tp nw)
    · exact ⟨m, by simp [upd_ne _ _ hd, hk], rfl, rfl, fun ha _ => ⟨ha, fun hlt => absurd hlt (by omega)⟩, fun ha _ => ha⟩
  | setFreezeAuth mt tp au nw =>
    obtain ⟨m0, hm, _, hau, rfl⟩ := setFreezeAuth_ok.1 h
    by_cases hd : k = mt
    · subst hd
      rw [hk] at hm; injection hm with hm; subst hm
      refine ⟨{ m with freezeAuth := some nw }, by simp, rfl, rfl, fun ha _ => ⟨ha, fun hlt => absurd hlt (by simp)⟩,
        fun ha hne => ?_⟩
      rw [ha] at hau; injection hau with hau; subst hau
      exact absurd rfl (hne tp nw)
    · exact ⟨m, by simp [upd_ne _ _ hd, hk], rfl, rfl, fun ha _ => ⟨ha, fun hlt => absurd hlt (by omega)⟩, fun ha _ => ha⟩
  | createAta kk wa tp mt =>
    obtain ⟨rfl, hnone, _, rfl⟩ := createAta_ok.1 h
    exact ⟨m, hk, rfl, rfl, fun ha _ => ⟨ha, fun hlt => absurd hlt (by omega)⟩, fun ha _ => ha⟩

/-- A mint across a trace. -/
theorem TraceE.mint {cfg : Cfg} {l l' : Ledger} {ops : List LedOp} (h : Trace cfg l ops l') {k : Pubkey} {m : Mint}
    (hk : l.mints k = some m) :
    ∃ m', l'.mints k = some m' ∧ m'.program = m.program ∧ m'.decimals = m.decimals ∧
      (m.mintAuth = some cfg.poolState → (∀ op ∈ ops, ∀ tp new, op ≠ .setMintAuth k tp cfg.poolState new) →
        m'.mintAuth = some cfg.poolState ∧
        (m.supply < m'.supply → ∃ op ∈ ops, ∃ d tp x, op = .mintTo k d tp cfg.poolState x)) ∧
      (m.freezeAuth = some cfg.poolState → (∀ op ∈ ops, ∀ tp new, op ≠ .setFreezeAuth k tp cfg.poolState new) →
        m'.freezeAuth = some cfg.poolState) := by
  induction h generalizing m with
  | nil => exact ⟨m, hk, rfl, rfl, fun ha _ => ⟨ha, fun hlt => absurd hlt (by omega)⟩, fun ha _ => ha⟩
  | cons h _ ih =>
    obtain ⟨m1, h1, hp1, hd1, ha1, hf1⟩ := LedOp.Run.mint h hk
    obtain ⟨m2, h2, hp2, hd2, ha2, hf2⟩ := ih h1
    refine ⟨m2, h2, hp2.trans hp1, hd2.trans hd1, fun ha hne => ?_, fun hf hne => ?_⟩
    · rw [List.forall_mem_cons] at hne
      obtain ⟨e1, s1⟩ := ha1 ha hne.1
      obtain ⟨e2, s2⟩ := ha2 e1 hne.2
      refine ⟨e2, fun hlt => ?_⟩
      by_cases hlt1 : m.supply < m1.supply
      · obtain ⟨d, tp, x, rfl, _⟩ := s1 hlt1
        exact ⟨_, List.mem_cons_self .., d, tp, x, rfl⟩
      · obtain ⟨op, ho, hx⟩ := s2 (by omega)
        exact ⟨op, List.mem_cons_of_mem _ ho, hx⟩
    · rw [List.forall_mem_cons] at hne
      exact hf2 (hf1 hf hne.1) hne.2

end S

import Verif.Controller.Rebalance
/-
Environments in which the called programs only answer (as the calculator and pricing programs of this repository do:
they read accounts and set return data, and change no account).
-/
set_option autoImplicit false
namespace S

/-- The called programs do not change the token ledger. -/
structure Env.Quiet {cfg : Cfg} (env : Env cfg) : Prop where
  calcF : ∀ {n w p ms q r l}, env.askCalc n w p ms q = .ok (r, l) → l = w.led
  priceF : ∀ {n w p ms q r l}, env.askPrice n w p ms q = .ok (r, l) → l = w.led

/-- The environment given by a calculator function and a pricing function of the program called, the accounts passed and
the request. -/
def Env.pure (cfg : Cfg) (calcF : Pubkey → List Acc → CalcReq → R Range) (priceF : Pubkey → List Acc → PriceReq → R Nat) :
    Env cfg where
  askCalc _ w p ms q := (calcF p ms q).map (·, w.led)
  askPrice _ w p ms q := (priceF p ms q).map (·, w.led)
  calc_ext {n w p ms q r l} h := by
    cases hc : calcF p ms q with
    | error e => rw [hc] at h; cases h
    | ok x => rw [hc] at h; injection h with h; injection h with _ h; subst h; exact .refl cfg _
  price_ext {n w p ms q r l} h := by
    cases hc : priceF p ms q with
    | error e => rw [hc] at h; cases h
    | ok x => rw [hc] at h; injection h with h; injection h with _ h; subst h; exact .refl cfg _

theorem Env.pure_calc {cfg : Cfg} {calcF : Pubkey → List Acc → CalcReq → R Range}
    {priceF : Pubkey → List Acc → PriceReq → R Nat} {n : Nat} {w : World} {p : Pubkey} {ms : List Acc} {q : CalcReq}
    {r : Range} {l : Ledger} :
    (Env.pure cfg calcF priceF).askCalc n w p ms q = .ok (r, l) ↔ calcF p ms q = .ok r ∧ l = w.led := by
  simp only [Env.pure]
  cases calcF p ms q with
  | error e => simp [Except.map]
  | ok x => simp [Except.map, eq_comm]

theorem Env.pure_price {cfg : Cfg} {calcF : Pubkey → List Acc → CalcReq → R Range}
    {priceF : Pubkey → List Acc → PriceReq → R Nat} {n : Nat} {w : World} {p : Pubkey} {ms : List Acc} {q : PriceReq}
    {r : Nat} {l : Ledger} :
    (Env.pure cfg calcF priceF).askPrice n w p ms q = .ok (r, l) ↔ priceF p ms q = .ok r ∧ l = w.led := by
  simp only [Env.pure]
  cases priceF p ms q with
  | error e => simp [Except.map]
  | ok x => simp [Except.map, eq_comm]

theorem Env.pure_quiet {cfg : Cfg} {calcF : Pubkey → List Acc → CalcReq → R Range}
    {priceF : Pubkey → List Acc → PriceReq → R Nat} : (Env.pure cfg calcF priceF).Quiet :=
  ⟨fun h => (Env.pure_calc.1 h).2, fun h => (Env.pure_price.1 h).2⟩

end S

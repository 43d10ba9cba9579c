import Verif.FeeSpec
import Verif.Exact

/-!
# Shares: a swap as a sequence of price moves

Vocabulary for C28 and C63.  Nothing here is used by the model.
-/

namespace OraiV3

/-- One price move of a swap: where the pool was (tick, price, liquidity), the price afterwards, what the trader paid (without
and as a fee), what the trader got, the protocol's part of the fee, and what one unit of liquidity earned (in units of
`10^-34` of the smallest unit of the token, for liquidity as stored). -/
structure PriceMove where
  tick : Int
  liquidity : Nat
  price : Nat
  next : Nat
  input : Nat
  fee : Nat
  output : Nat
  protocol : Nat
  growth : Nat
deriving Repr, DecidableEq

/-- The moves lead from one price to the other. -/
def Leads : Nat → List PriceMove → Nat → Prop
  | a, [], b => a = b
  | a, m :: ms, b => m.price = a ∧ Leads m.next ms b

/-- What one unit of liquidity earns in a range: the growth of the moves made while the range contained the tick. -/
def earned (ms : List PriceMove) (l u : Int) : Nat :=
  (ms.map (fun m => if l ≤ m.tick ∧ m.tick < u then m.growth else 0)).sum

/-- Exact amount of a token (X if `x`) that liquidity `L` exchanges between two prices. -/
def exactAmount (x : Bool) (L a b : Nat) : ℚ := if x then exactX L a b else exactY L a b

/-- The protocol's share `pf` (in 10^-12) of a fee, rounded up. -/
def shareUp (pf fee : Nat) : Nat := (fee * pf + (10 ^ 12 - 1)) / 10 ^ 12

/-- What is charged for a single move when token X is paid if `d` and token Y otherwise.
* The price moves in the direction of the swap.
* The input and the output are those of the price curve for the liquidity in use, rounded in the pool's favour.
* Input and fee together are at least the input of the price curve and, on top of it, the pool's percentage of it.
* The protocol gets its share, as set in the configuration, of the fee, which is charged in one or two parts, each share
  rounded up but never larger than the part. -/
structure ChargeOk (s : Store) (k : PoolKey) (d : Bool) (m : PriceMove) : Prop where
  dir : if d then m.next ≤ m.price else m.price ≤ m.next
  inLower : exactAmount d m.liquidity m.price m.next ≤ m.input + 1 / 10 ^ 14
  inUpper : (m.input : ℚ) * (1 - 1 / 10 ^ 14) ≤ exactAmount d m.liquidity m.price m.next + 1
  gross : exactAmount d m.liquidity m.price m.next * (1 + (k.tier.fee : ℚ) / 10 ^ 12) ≤ m.input + m.fee + 2 / 10 ^ 14
  out : (m.output : ℚ) ≤ exactAmount (!d) m.liquidity m.price m.next
  share : ∃ cfg f g, s.config = some cfg ∧ m.fee = f + g ∧
    m.protocol = shareUp cfg.protocolFee f + shareUp cfg.protocolFee g ∧
    shareUp cfg.protocolFee f ≤ f ∧ shareUp cfg.protocolFee g ≤ g

/-- What holds of a single move beyond that, when the liquidity of the pool is `dr` more than that of the positions in range
(0 in histories without irregular ends, see C01).
* The move uses the liquidity of the positions whose range contains the tick.
* All of the fee goes to the protocol or to the liquidity in use, up to two units of growth. -/
structure MoveOk (s : Store) (k : PoolKey) (d : Bool) (dr : Int) (m : PriceMove) : Prop extends ChargeOk s k d m where
  active : (m.liquidity : Int) = liquidityInRange s k m.tick + dr
  upper : m.growth * m.liquidity + m.protocol * 10 ^ 34 ≤ m.fee * 10 ^ 34
  lower : m.fee * 10 ^ 34 ≤ (m.growth + 2) * m.liquidity + m.protocol * 10 ^ 34

end OraiV3

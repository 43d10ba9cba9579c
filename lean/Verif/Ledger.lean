import Verif.Contract

/-!
# Ledger: token balances and transactions

The environment of the contract: balances of native coins and of cw20 tokens, and what a transaction
does.  None of this is code of the repository; it states what the contract relies on (CosmWasm and an
honest cw20 implementation): attached funds are moved before the contract runs, the messages of the
response are executed afterwards in order, and any failure reverts everything.
-/

namespace OraiV3

/-- Something the ledger counts: a cw20 token (by contract address) or a native coin (by denom). -/
inductive Asset where
  | cw20 (addr : Bytes)
  | native (denom : Bytes)
  deriving DecidableEq, Repr

/-- The asset the contract means by a token string (`AssetInfo::from_denom`, `interface.rs:38-48`). -/
def tokenAsset (c : Chain) (denom : Bytes) : Asset := if c.isAddr denom then .cw20 denom else .native denom

/-- The token a swap takes (`entrypoints/common.rs:216-220`). -/
def tokenIn (k : PoolKey) (xToY : Bool) : Bytes := if xToY then k.tokenX else k.tokenY
/-- The token a swap gives. -/
def tokenOut (k : PoolKey) (xToY : Bool) : Bytes := if xToY then k.tokenY else k.tokenX

/-- Balances, and cw20 allowances given to the contract. -/
structure Ledger where
  bal : Asset → Bytes → Nat
  allow : Bytes → Bytes → Nat

/-- Function update. -/
def upd {α β : Type} [DecidableEq α] (f : α → β) (a : α) (b : β) : α → β := fun x => if x = a then b else f x

/-- Move an amount between two holders; fails if the balance is too small. -/
def Ledger.move (l : Ledger) (a : Asset) (src dst : Bytes) (n : Nat) : M Ledger :=
  if l.bal a src < n then .error .transferFailed
  else
    let b1 := upd (l.bal a) src (l.bal a src - n)
    .ok { l with bal := upd l.bal a (upd b1 dst (b1 dst + n)) }

/-- Effect of one response message.  `nftReceive` is a call into another contract: the ledger changes
that contract makes, and its calls back into this one, are separate later steps. -/
def Ledger.apply (c : Chain) (l : Ledger) : OutMsg → M Ledger
  | .cw20Transfer t to n => l.move (.cw20 t) c.self to n
  | .bankSend to d n => l.move (.native d) c.self to n
  | .cw20TransferFrom t owner to n =>
    if l.allow t owner < n then .error .transferFailed
    else { l with allow := upd l.allow t (upd (l.allow t) owner (l.allow t owner - n)) }.move (.cw20 t) owner to n
  | .nftReceive .. => .ok l

/-- Messages are executed in order. -/
def Ledger.applyAll (c : Chain) (l : Ledger) : List OutMsg → M Ledger
  | [] => .ok l
  | m :: ms => do
    let l ← l.apply c m
    l.applyAll c ms

/-- Attached funds go to the contract first. -/
def Ledger.takeFunds (c : Chain) (l : Ledger) (sender : Bytes) : List Coin → M Ledger
  | [] => .ok l
  | x :: xs => do
    let l ← l.move (.native x.denom) sender c.self x.amount
    l.takeFunds c sender xs

/-- Storage and balances. -/
structure World where
  store : Store
  ledger : Ledger

/-- A transaction that succeeds. -/
def World.tx (c : Chain) (w : World) (env : Env) (info : Info) (msg : Msg) : M World := do
  let l ← w.ledger.takeFunds c info.sender info.funds
  let r ← execute c env info msg w.store
  let l ← l.applyAll c r.2
  pure ⟨r.1, l⟩

/-- What the chain does with a transaction: a failing one changes nothing. -/
def World.submit (c : Chain) (w : World) (env : Env) (info : Info) (msg : Msg) : World :=
  match w.tx c env info msg with
  | .ok w' => w'
  | .error _ => w

end OraiV3

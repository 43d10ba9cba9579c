import Verif.Solvency

/-!
# Dishonest tokens

Specification for C91.  Anybody can create a pool for any token, so some of the tokens may be programs that do not keep
books, refuse transfers, take fees, or call back into the contract while a transfer is being carried out.  Nothing here is
used by the model.

Throughout, `T` is a set of tokens that do behave like tokens; about the others nothing is known.
-/

namespace OraiV3

/-- The message runs a program that is not known to be an honest token: it may do anything. -/
def OutMsg.foreign (T : Bytes → Prop) : OutMsg → Prop
  | .cw20Transfer t _ _ | .cw20TransferFrom t _ _ _ => ¬ T t
  | .bankSend .. => False
  | .nftReceive .. => True

/-- Foreign code is running: either no transaction of the contract is being carried out (users and their programs are free to act),
or the message to be carried out next runs a foreign program. -/
def Open (T : Bytes → Prop) : List OutMsg → Prop
  | [] => True
  | m :: _ => m.foreign T

/-- Everything that can happen if the tokens of `T` behave like tokens and the swaps in pools that trade them end regularly.  A
state is the storage with all balances and the messages of unfinished calls, the next one first; the number counts roundings as in
`History`.  A foreign program may call the contract while its message is carried out, and the messages of that call come first.
It may change all balances but cannot take tokens of `T` from the contract.  (A call that fails, or is taken back by the program that
made it, leaves the state before it, which is one of these states.) -/
inductive Nested (c : Chain) (T : Bytes → Prop) : World → List OutMsg → Nat → Prop where
  | init (sender : Bytes) (fee : Nat) (h : fee < U64) (l : Ledger) : Nested c T ⟨instantiate sender fee, l⟩ [] 0
  | call {w : World} {ms : List OutMsg} {n : Nat} {env : Env} {info : Info} {msg : Msg} {l : Ledger} {s' : Store} {out : List OutMsg} :
      Nested c T w ms n → Open T ms → info.sender ≠ c.self → w.ledger.takeFunds c info.sender info.funds = .ok l →
      execute c env info msg w.store = .ok (s', out) → RegularCall c (PoolKey.trades T) env info w.store s' msg → ChargedOnce c T msg →
      Nested c T ⟨s', l⟩ (out ++ ms) (n + roundings c env info w.store msg)
  | deliver {w : World} {m : OutMsg} {ms : List OutMsg} {n : Nat} {l : Ledger} :
      Nested c T w (m :: ms) n → ¬ m.foreign T → w.ledger.apply c m = .ok l → Nested c T ⟨w.store, l⟩ ms n
  | done {w : World} {m : OutMsg} {ms : List OutMsg} {n : Nat} :
      Nested c T w (m :: ms) n → m.foreign T → Nested c T w ms n
  | foreign {w : World} {ms : List OutMsg} {n : Nat} (l : Ledger) : Nested c T w ms n → Open T ms →
      (∀ t, T t → w.ledger.bal (tokenAsset c t) c.self ≤ l.bal (tokenAsset c t) c.self) → Nested c T ⟨w.store, l⟩ ms n

end OraiV3

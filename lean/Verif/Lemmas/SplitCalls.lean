import Verif.Lemmas.Split
import Verif.Lemmas.Deposit
import Verif.Props.Quote

/-!
# What opening charges and closing pays, as the contract's functions of the price
-/

namespace OraiV3

theorem charged_amount {c : Chain} {w w' : World} {info : Info} {t : Bytes} {x n : Nat} {m1 : List OutMsg} {o : Int}
    (hne : info.sender ≠ c.self) (hn : (info.funds.map Coin.denom).Nodup)
    (b : (w'.ledger.bal (tokenAsset c t) info.sender : Int) = w.ledger.bal (tokenAsset c t) info.sender +
      fundsDelta c info.sender info.funds (tokenAsset c t) info.sender + o)
    (ho : o = outDelta c m1 (tokenAsset c t) info.sender)
    (t1 : assetTransferFrom c t n info = .ok m1) (hx : ∀ coin ∈ info.funds, coin.denom = t → x < coin.amount)
    (e : w'.ledger.bal (tokenAsset c t) info.sender + x = w.ledger.bal (tokenAsset c t) info.sender) : n = x := by
  subst ho
  by_cases h0 : n = 0
  · have : m1 = [] := by
      unfold assetTransferFrom at t1
      rw [if_pos h0, ok_inj] at t1
      exact t1.symm
    rw [this] at b
    simp only [outDelta, List.map_nil, List.sum_nil] at b
    by_cases hc : c.isAddr t
    · have e' : tokenAsset c t = .cw20 t := by simp [tokenAsset, hc]
      rw [e'] at b e
      rw [fundsDelta_cw20] at b
      omega
    · have e' : tokenAsset c t = .native t := by simp [tokenAsset, hc]
      rw [e'] at b e
      rw [fundsDelta_native, attached_unique hn, if_neg hne, if_pos rfl] at b
      cases hf : info.funds.find? (fun y => y.denom = t) with
      | none => rw [hf] at b; simp only at b; omega
      | some coin =>
        rw [hf] at b
        simp only at b
        have h1 := hx coin (List.mem_of_find?_eq_some hf) (by simpa using List.find?_some hf)
        omega
  · have := charge_exact hne hn h0 t1
    omega

theorem opening_view {c : Chain} {w w' : World} {env : Env} {info : Info} {k : PoolKey} {l u : Int} {L lo hi x y : Nat} {msg : Msg}
    {p : Pool} (hm : msg = .createPosition k l u L lo hi ∨ msg = .mint k l u L lo hi)
    (hr : Reach c w.store) (hne : info.sender ≠ c.self) (hn : (info.funds.map Coin.denom).Nodup)
    (hp : w.store.pools.get? k.key = some p) (h : w.tx c env info msg = .ok w')
    (hx : ∀ coin ∈ info.funds, coin.denom = k.tokenX → x < coin.amount)
    (hy : ∀ coin ∈ info.funds, coin.denom = k.tokenY → y < coin.amount)
    (ex : w'.ledger.bal (tokenAsset c k.tokenX) info.sender + x = w.ledger.bal (tokenAsset c k.tokenX) info.sender)
    (ey : w'.ledger.bal (tokenAsset c k.tokenY) info.sender + y = w.ledger.bal (tokenAsset c k.tokenY) info.sender) :
    getDeltaX (clampPrice (sqrtPriceAt l) (sqrtPriceAt u) p.sqrtPrice) (sqrtPriceAt u) L true = .ok x ∧
      getDeltaY (sqrtPriceAt l) (clampPrice (sqrtPriceAt l) (sqrtPriceAt u) p.sqrtPrice) L true = .ok y := by
  obtain ⟨out, x1, b1⟩ := tx_inv h
  have y1 : (Msg.createPosition k l u L lo hi).wf ∧
      createPosition c w.store env info k l u L lo hi = .ok (w'.store, out) := by
    rcases hm with rfl | rfl
    · exact execute_ok.1 x1
    · exact execute_ok.1 x1
  have hmr := hr.mreach
  obtain ⟨p0, x0, y0, m1, m2, hp0, hok, ok1, ok2, hlu, hxy, g1, g2, t1, t2, eo⟩ :=
    createPosition_charge hmr.struct hmr.price y1.1 y1.2
  rw [hp] at hp0
  obtain rfl := Option.some.inj hp0
  have hax : tokenAsset c k.tokenX ≠ tokenAsset c k.tokenY := fun e => hxy (tokenAsset_inj e)
  have e1 : x0 = x := by
    have b := b1 (tokenAsset c k.tokenX) info.sender
    rw [eo, outDelta_append, assetTransferFrom_other t2 hax] at b
    exact charged_amount hne hn b (by simp) t1 hx ex
  have e2 : y0 = y := by
    have b := b1 (tokenAsset c k.tokenY) info.sender
    rw [eo, outDelta_append, assetTransferFrom_other t1 hax.symm] at b
    exact charged_amount hne hn b (by simp) t2 hy ey
  subst e1 e2
  exact ⟨g1, g2⟩

theorem closing_view {c : Chain} {w w' : World} {env : Env} {who : Bytes} {i : Nat} {q : Position} {p : Pool}
    (hr : Reach c w.store) (hne : who ≠ c.self) (hq : w.store.positions.get? (positionKey who i) = some q)
    (hp : w.store.pools.get? q.poolKey.key = some p) (h : w.tx c env ⟨who, []⟩ (.removePosition i) = .ok w') :
    ∃ x y, getDeltaX (clampPrice (sqrtPriceAt q.lower) (sqrtPriceAt q.upper) p.sqrtPrice) (sqrtPriceAt q.upper)
        q.liquidity false = .ok x ∧
      getDeltaY (sqrtPriceAt q.lower) (clampPrice (sqrtPriceAt q.lower) (sqrtPriceAt q.upper) p.sqrtPrice)
        q.liquidity false = .ok y ∧
      w'.ledger.bal (tokenAsset c q.poolKey.tokenX) who =
        w.ledger.bal (tokenAsset c q.poolKey.tokenX) who + (x + accrued w.store true q / 10 ^ 34) ∧
      w'.ledger.bal (tokenAsset c q.poolKey.tokenY) who =
        w.ledger.bal (tokenAsset c q.poolKey.tokenY) who + (y + accrued w.store false q / 10 ^ 34) := by
  obtain ⟨out, x1, b1⟩ := tx_inv h
  have y1 := (execute_ok.1 x1).2
  simp only [dispatch] at y1
  have hmr := hr.mreach
  obtain ⟨q0, p0, x, y, hq0, hp0, hok, ok1, ok2, hxy, g1, g2, eo⟩ := removePosition_payment hmr.struct hmr.price y1
  simp only at hq0
  rw [hq] at hq0
  obtain rfl := Option.some.inj hq0
  rw [hp] at hp0
  obtain rfl := Option.some.inj hp0
  have hax : tokenAsset c q.poolKey.tokenX ≠ tokenAsset c q.poolKey.tokenY := fun e => hxy (tokenAsset_inj e)
  refine ⟨x, y, g1, g2, ?_, ?_⟩
  · have b := b1 (tokenAsset c q.poolKey.tokenX) who
    rw [eo, outDelta_append] at b
    have s1 := assetTransfer_sender (c := c) (d := q.poolKey.tokenX) (n := x + accrued w.store true q / 10 ^ 34)
      (info := ⟨who, []⟩) hne (tokenAsset c q.poolKey.tokenX)
    have s2 := assetTransfer_sender (c := c) (d := q.poolKey.tokenY) (n := y + accrued w.store false q / 10 ^ 34)
      (info := ⟨who, []⟩) hne (tokenAsset c q.poolKey.tokenX)
    rw [if_pos rfl] at s1
    rw [if_neg hax] at s2
    simp only at s1 s2 b
    rw [s1, s2] at b
    simp only [fundsDelta, List.map_nil, List.sum_nil] at b
    omega
  · have b := b1 (tokenAsset c q.poolKey.tokenY) who
    rw [eo, outDelta_append] at b
    have s1 := assetTransfer_sender (c := c) (d := q.poolKey.tokenX) (n := x + accrued w.store true q / 10 ^ 34)
      (info := ⟨who, []⟩) hne (tokenAsset c q.poolKey.tokenY)
    have s2 := assetTransfer_sender (c := c) (d := q.poolKey.tokenY) (n := y + accrued w.store false q / 10 ^ 34)
      (info := ⟨who, []⟩) hne (tokenAsset c q.poolKey.tokenY)
    rw [if_neg hax.symm] at s1
    rw [if_pos rfl] at s2
    simp only at s1 s2 b
    rw [s1, s2] at b
    simp only [fundsDelta, List.map_nil, List.sum_nil] at b
    omega

end OraiV3

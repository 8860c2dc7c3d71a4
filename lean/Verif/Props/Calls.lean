import Verif.Model.Calls
import Verif.Props.Values
/-! C182: what the Python module defines can be called. C183: dividends per share that are set in Python. -/
namespace Esl.Calls

/-! ## Specification -/

/-- There is a program, of calls of the module, after which this call succeeds. -/
def Spec.Usable (known : List String) (f : Function) : Prop :=
  ∃ p : List Function, (∀ g ∈ p, g ∈ available) ∧ ∃ held, call known (run known p start) f = .ok held

/-- No other module has defined classes for C++ types, but for those that have to be there to import this one at all (C161). -/
def Spec.Alone (before : List String) : Prop := ∀ t ∈ before, t = "market" ∨ t = "header"

/-- Methods and constructors that cannot be used: splitting a quantity, valuing property, dividends per share, quotes of exchange rates, the best prices of the order book with trees, new collections of agents. -/
def Spec.unusableMethods : List String :=
  [ "quantity.__truediv__(int)", "standard.value(money, quantity)", "standard.value(cash, quantity)", "standard.value(stock, quantity)", "standard.value(loan, quantity)", "standard.value(securities_lending_contract, quantity)",
    "map_share_class_uint64_t_price.__setitem__", "map_share_class_uint64_t_price.__getitem__", "quote(exchange_rate)", "binary_tree_order_book.ask", "binary_tree_order_book.bid",
    "agent_collection(reference_wrapper<environment>)" ]

/-- Attributes that cannot be assigned, although they are defined as attributes that can. -/
def Spec.unassignable : List String :=
  [ "agent_timing.messaging =", "agent_timing.acting =", "centralized_exchange.positions =", "logon_message.supply =", "market_data_request_message.instruments =", "matching_engine.books =",
    "excess_demand_model.circuit_breaker =", "excess_demand_model.methods =", "excess_demand_model.quotes =" ]

/-- Attributes that cannot be read (C168). -/
def Spec.unusableAttributes : List String := Values.Spec.unreadable.map fun a => a.1 ++ "." ++ a.2

/-! ## Lemmas -/

/-- The types for which there are classes. -/
def registered : List String := "market" :: Attributes.eslModule.map (·.type)

theorem contains_known {before known : List String} (hi : Attributes.importEsl before = .ok known) (hb : Spec.Alone before) (t : String) : known.contains t = registered.contains t := by
  have hm : "market" ∈ before := ((Attributes.C161_counterexample before).1 ⟨known, hi⟩).1
  have hh : "header" ∈ Attributes.eslModule.map (·.type) := by decide +kernel
  rw [Bool.eq_iff_iff, List.contains_iff_mem, List.contains_iff_mem, Values.known_iff before known hi t]
  unfold registered
  rw [List.mem_cons]
  constructor
  · rintro (h | h)
    · rcases hb t h with rfl | rfl
      · exact Or.inl rfl
      · exact Or.inr hh
    · exact Or.inr h
  · rintro (rfl | h)
    · exact Or.inl hm
    · exact Or.inr h

theorem call_known {before known : List String} (hi : Attributes.importEsl before = .ok known) (hb : Spec.Alone before) : call known = call registered := by
  funext held f
  unfold call
  rw [contains_known hi hb]

theorem run_known {before known : List String} (hi : Attributes.importEsl before = .ok known) (hb : Spec.Alone before) : run known = run registered := by
  funext p held
  unfold run
  rw [call_known hi hb]

/-- A program that makes an object of each class that it can have. -/
def makers : List Function :=
  [ ⟨"seed(list)", ["plain"], "std::seed_seq"⟩, ⟨"exception(str)", ["plain"], "exception"⟩, ⟨"quantity()", [], "quantity"⟩, ⟨"block()", [], "block<object>"⟩, ⟨"environment()", [], "python_environment"⟩,
    ⟨"agent_timing()", [], "agent_timing"⟩, ⟨"activation()", [], "activation"⟩, ⟨"migration()", [], "migration"⟩, ⟨"deactivation()", [], "deactivation"⟩,
    ⟨"map_share_class_uint64_t()", [], "map<share_class, uint64_t>"⟩, ⟨"map_property_identifier_quote()", [], "map<identity<property>, quote>"⟩, ⟨"standard(iso_4217)", ["iso_4217"], "standard"⟩,
    ⟨"price(int, iso_4217)", ["plain", "iso_4217"], "price"⟩, ⟨"iso_6166(iso_3166_1_alpha_2, str)", ["iso_3166_1_alpha_2", "plain"], "isin"⟩, ⟨"cusip(str)", ["plain"], "cusip"⟩,
    ⟨"share_class(int, int, float, bool, bool, bool)", ["plain", "plain", "plain", "plain", "plain", "plain"], "share_class"⟩,
    ⟨"map_share_class_uint64_t_price()", [], "map<share_class, tuple<uint64_t, price>>"⟩, ⟨"iso_10383(str)", ["plain"], "iso_10383"⟩, ⟨"quote(price)", ["price"], "quote"⟩,
    ⟨"position_report(int, int, int)", ["plain", "plain", "plain"], "position_report"⟩, ⟨"logon_message()", [], "logon_message"⟩, ⟨"logout_message()", [], "logout_message"⟩,
    ⟨"market_data_request_message()", [], "market_data_request_message"⟩, ⟨"order_status_request()", [], "order_status_request"⟩, ⟨"order_status_response_message()", [], "order_status_response_message"⟩,
    ⟨"new_order_single()", [], "new_order_single"⟩, ⟨"execution_report_message()", [], "execution_report_message"⟩, ⟨"execution_reports()", [], "vector<execution_report>"⟩,
    ⟨"execution_reports.__getitem__", ["vector<execution_report>", "plain"], "execution_report"⟩, ⟨"order_identifier_list()", [], "vector<order_identifier>"⟩, ⟨"limit_orders()", [], "vector<limit_order>"⟩,
    ⟨"limit_orders.__getitem__", ["vector<limit_order>", "plain"], "limit_order"⟩, ⟨"static_order_book(quote, quote, int)", ["quote", "quote", "plain"], "static_order_book"⟩,
    ⟨"binary_tree_order_book()", [], "binary_tree_order_book"⟩, ⟨"matching_engine()", [], "matching_engine"⟩, ⟨"messages_t()", [], "messages_t"⟩,
    ⟨"excess_demand_model(dict)", ["plain"], "python_excess_demand_model"⟩, ⟨"make_callback_handle", ["plain"], "callback_handle"⟩, ⟨"callback_t()", [], "callback_t"⟩, ⟨"inbox_t()", [], "inbox_t"⟩,
    ⟨"outbox_t()", [], "outbox_t"⟩, ⟨"communicator()", [], "communicator"⟩, ⟨"header(code)", ["plain"], "header"⟩, ⟨"message()", [], "python_message"⟩, ⟨"iso_17442(str)", ["plain"], "iso_17442"⟩,
    ⟨"legal_entity()", [], "legal_entity"⟩, ⟨"property_identity()", [], "identity<property>"⟩, ⟨"agent(identity)", ["python_identity"], "python_agent"⟩, ⟨"agent.create", ["python_agent"], "python_identity"⟩,
    ⟨"organization(identity, jurisdiction)", ["python_identity", "jurisdiction"], "python_organization"⟩, ⟨"company(identity, jurisdiction)", ["python_identity", "jurisdiction"], "python_company"⟩,
    ⟨"ticker(identity, identity)", ["python_identity", "python_identity"], "ticker"⟩, ⟨"centralized_exchange(identity)", ["python_identity"], "centralized_exchange"⟩,
    ⟨"differentiable_order_message(...)", ["python_identity", "python_identity", "plain", "plain"], "python_differentiable_order_message"⟩, ⟨"property(identity)", ["python_identity"], "property"⟩,
    ⟨"natural_person(iso_3166_1_alpha_2)", ["iso_3166_1_alpha_2"], "natural_person"⟩, ⟨"entity(identity)", ["python_identity"], "entity<object>"⟩,
    ⟨"time_interval(time, time)", ["plain", "plain"], "time_interval"⟩,
    ⟨"dividend_policy(...)", ["plain", "plain", "time_interval", "plain", "iso_4217", "map<share_class, tuple<uint64_t, price>>"], "dividend_policy"⟩, ⟨"world()", [], "world"⟩,
    ⟨"parameter_base()", [], "parameter_base"⟩, ⟨"constant_double(float)", ["plain"], "constant<double>"⟩, ⟨"constant_int64(int)", ["plain"], "constant<int64_t>"⟩,
    ⟨"constant_uint64(int)", ["plain"], "constant<uint64_t>"⟩, ⟨"constant_price(price)", ["price"], "constant<price>"⟩, ⟨"parameter_values()", [], "map<string, shared_ptr<parameter_base>>"⟩,
    ⟨"parametrization()", [], "parametrization"⟩, ⟨"model(environment, parametrization)", ["python_environment", "parametrization"], "python_model"⟩, ⟨"model.agents", ["python_model"], "agent_collection"⟩ ]

/-- The types of the objects that programs can have. -/
def reachable : List String := makers.map (·.result) ++ start

theorem provides_mono {held held' : List String} (h : ∀ t ∈ held, t ∈ held') (t : String) (hp : provides held t = true) : provides held' t = true := by
  unfold provides at *
  rw [Bool.or_eq_true, List.any_eq_true] at *
  rcases hp with hp | ⟨c, hc, hp⟩
  · exact Or.inl (List.contains_iff_mem.2 (h t (List.contains_iff_mem.1 hp)))
  · rw [Bool.and_eq_true] at hp
    refine Or.inr ⟨c, hc, ?_⟩
    rw [Bool.and_eq_true]
    exact ⟨hp.1, List.contains_iff_mem.2 (h _ (List.contains_iff_mem.1 hp.2))⟩

/-- Whether a call has arguments and a result, with these objects. -/
def able (held : List String) (f : Function) : Bool := f.arguments.all (provides held) && (f.result == "plain" || registered.contains f.result)

theorem call_able (held : List String) (f : Function) : (able held f = true → ∃ h, call registered held f = .ok h ∧ ∀ t ∈ h, t ∈ held ∨ t = f.result) ∧ (able held f = false → call registered held f = .throws) := by
  unfold able call
  by_cases ha : f.arguments.all (provides held) = true
  · rw [if_pos ha, ha, Bool.true_and]
    by_cases hp : (f.result == "plain") = true
    · rw [if_pos hp, hp]
      exact ⟨fun _ => ⟨held, rfl, fun t ht => Or.inl ht⟩, fun h => by simp at h⟩
    · rw [if_neg hp]
      rw [Bool.not_eq_true] at hp
      rw [hp, Bool.false_or]
      by_cases hr : registered.contains f.result = true
      · rw [if_pos hr, hr]
        refine ⟨fun _ => ⟨_, rfl, fun t ht => ?_⟩, fun h => by simp at h⟩
        split at ht
        · exact Or.inl ht
        · rcases List.mem_cons.1 ht with ht | ht
          · exact Or.inr ht
          · exact Or.inl ht
      · rw [if_neg hr]
        exact ⟨fun h => absurd h hr, fun _ => rfl⟩
  · rw [if_neg ha]
    rw [Bool.not_eq_true] at ha
    rw [ha, Bool.false_and]
    exact ⟨fun h => by simp at h, fun _ => rfl⟩

theorem able_mono {held held' : List String} (h : ∀ t ∈ held, t ∈ held') (f : Function) (ha : able held f = true) : able held' f = true := by
  unfold able at *
  rw [Bool.and_eq_true, List.all_eq_true] at *
  exact ⟨fun a hm => provides_mono h a (ha.1 a hm), ha.2⟩

theorem makers_available : (makers.all fun f => available.contains f) = true := by decide +kernel

theorem run_makers : (reachable.all fun t => (run registered makers start).contains t) = true := by decide +kernel

theorem closed : (available.all fun f => !able reachable f || f.result == "plain" || reachable.contains f.result) = true := by decide +kernel

theorem run_reachable (p : List Function) (hp : ∀ g ∈ p, g ∈ available) (held : List String) (h : ∀ t ∈ held, t ∈ reachable) : ∀ t ∈ run registered p held, t ∈ reachable := by
  induction p generalizing held with
  | nil => exact h
  | cons f p ih =>
    refine ih (fun g hg => hp g (List.mem_cons_of_mem _ hg)) _ ?_
    show ∀ t ∈ (match call registered held f with | .ok h' => h' | _ => held), t ∈ reachable
    cases ha : able held f with
    | false => rw [(call_able held f).2 ha]; exact h
    | true =>
      obtain ⟨h', hc, hm⟩ := (call_able held f).1 ha
      rw [hc]
      intro t ht
      rcases hm t ht with ht | rfl
      · exact h t ht
      · have hcl := List.all_eq_true.1 closed f (hp f List.mem_cons_self)
        rw [able_mono h f ha] at hcl
        simp only [Bool.not_true, Bool.false_or, Bool.or_eq_true, beq_iff_eq, List.contains_iff_mem] at hcl
        rcases hcl with hcl | hcl
        · rw [hcl]; decide +kernel
        · exact hcl

theorem start_reachable : ∀ t ∈ start, t ∈ reachable := by decide +kernel

theorem listed : (available.all fun f => able reachable f == !(Spec.unusableMethods.contains f.name || Spec.unassignable.contains f.name || (Spec.unusableAttributes).contains f.name)) = true := by decide +kernel

theorem usable_iff {before known : List String} (hi : Attributes.importEsl before = .ok known) (hb : Spec.Alone before) (f : Function) : Spec.Usable known f ↔ able reachable f = true := by
  unfold Spec.Usable
  rw [call_known hi hb, run_known hi hb]
  constructor
  · rintro ⟨p, hp, h', hc⟩
    cases ha : able (run registered p start) f with
    | true => exact able_mono (run_reachable p hp start start_reachable) f ha
    | false => rw [(call_able _ f).2 ha] at hc; cases hc
  · intro ha
    have hr : ∀ t ∈ reachable, t ∈ run registered makers start := fun t ht => List.contains_iff_mem.1 (List.all_eq_true.1 run_makers t ht)
    obtain ⟨h', hc, _⟩ := (call_able _ f).1 (able_mono hr f ha)
    exact ⟨makers, fun g hg => List.contains_iff_mem.1 (List.all_eq_true.1 makers_available g hg), h', hc⟩

/-! ## C182 -/

/-- **C182 (partial).** Missing: what is in the lists. For everything else that the module defines there is a program that calls it with success. -/
theorem C182_usable_partial (before known : List String) (hi : Attributes.importEsl before = .ok known) (hb : Spec.Alone before) (f : Function) (hf : f ∈ available)
    (hm : f.name ∉ Spec.unusableMethods) (ha : f.name ∉ Spec.unassignable) (hr : f.name ∉ Spec.unusableAttributes) : Spec.Usable known f := by
  rw [usable_iff hi hb]
  have h := List.all_eq_true.1 listed f hf
  rw [beq_iff_eq] at h
  rw [h]
  simp [hm, ha, hr]

/-- **C182 fails** for the methods, the constructors and the attributes of the lists: no program can call them with success. Whatever calls it has made before, there is an exception. -/
theorem C182_counterexample (before known : List String) (hi : Attributes.importEsl before = .ok known) (hb : Spec.Alone before) (f : Function) (hf : f ∈ available)
    (h : f.name ∈ Spec.unusableMethods ∨ f.name ∈ Spec.unassignable ∨ f.name ∈ Spec.unusableAttributes) (p : List Function) (hp : ∀ g ∈ p, g ∈ available) :
    call known (run known p start) f = .throws := by
  have hl := List.all_eq_true.1 listed f hf
  rw [beq_iff_eq] at hl
  have hn : able reachable f = false := by
    rw [hl]
    rcases h with h | h | h <;> simp [h]
  rw [call_known hi hb, run_known hi hb]
  refine (call_able _ f).2 ?_
  cases ha : able (run registered p start) f with
  | false => rfl
  | true => rw [able_mono (run_reachable p hp start start_reachable) f ha] at hn; cases hn

/-- All entries of the lists are defined by the module. -/
theorem C182_counterexample_listed : ∀ n ∈ Spec.unusableMethods ++ Spec.unassignable ++ Spec.unusableAttributes, ∃ f ∈ available, f.name = n := by
  have h : ((Spec.unusableMethods ++ Spec.unassignable ++ Spec.unusableAttributes).all fun n => available.any fun f => f.name == n) = true := by decide +kernel
  intro n hn
  obtain ⟨f, hf, he⟩ := List.any_eq_true.1 (List.all_eq_true.1 h n hn)
  exact ⟨f, hf, beq_iff_eq.1 he⟩

/-- The hypotheses are met: there are registries with which the module can be imported. -/
example : (∃ known, Attributes.importEsl ["market", "header"] = .ok known) ∧ Spec.Alone ["market", "header"] :=
  ⟨(Attributes.C161_counterexample _).2 (by decide), fun t ht => by simpa using ht⟩

/-- Splitting a quantity is defined, and so is adding quantities, which is in none of the lists. -/
example : ⟨"quantity.__truediv__(int)", ["quantity", "plain"], "vector<quantity>"⟩ ∈ available ∧ ⟨"quantity.__add__", ["quantity", "quantity"], "quantity"⟩ ∈ available ∧
    "quantity.__add__" ∉ Spec.unusableMethods ∧ "quantity.__add__" ∉ Spec.unassignable ∧ "quantity.__add__" ∉ Spec.unusableAttributes := by decide +kernel

/-! ## C183 -/

open Esl.Company (Register ShareClass Money Price totalDividends)

theorem run_empty {known : List String} (hk : known.contains "tuple<uint64_t, price>" = false) (l : List Statement) (d : Dividends) (hm : ∀ r ∈ d.maps, r = []) (hp : ∀ p ∈ d.policies, p.2 = []) :
    (∀ r ∈ (l.foldl (fun d s => (d.execute known s).1) d).maps, r = []) ∧ ∀ p ∈ (l.foldl (fun d s => (d.execute known s).1) d).policies, p.2 = [] := by
  induction l generalizing d with
  | nil => exact ⟨hm, hp⟩
  | cons s l ih =>
    rw [List.foldl_cons]
    cases s with
    | newMap =>
      refine ih _ (fun r hr => ?_) hp
      rcases List.mem_append.1 hr with hr | hr
      · exact hm r hr
      · exact List.mem_singleton.1 hr
    | setItem m s n p =>
      have : (d.execute known (.setItem m s n p)).1 = d := by
        unfold Dividends.execute
        simp only [hk]
        cases d.maps[m]? <;> rfl
      rw [this]
      exact ih d hm hp
    | deleteItem m s =>
      cases hr : d.maps[m]? with
      | none =>
        have : (d.execute known (.deleteItem m s)).1 = d := by simp only [Dividends.execute, hr]
        rw [this]
        exact ih d hm hp
      | some r =>
        have : (d.execute known (.deleteItem m s)).1 = { d with maps := d.maps.set m (r.filter fun e => e.1.lt s || s.lt e.1) } := by simp only [Dividends.execute, hr]
        rw [this]
        refine ih _ (fun x hx => ?_) hp
        rcases List.mem_or_eq_of_mem_set hx with hx | hx
        · exact hm x hx
        · rw [hx, hm r (List.mem_of_getElem? hr)]; rfl
    | newPolicy c m =>
      cases hr : d.maps[m]? with
      | none =>
        have : (d.execute known (.newPolicy c m)).1 = d := by simp only [Dividends.execute, hr]
        rw [this]
        exact ih d hm hp
      | some r =>
        have : (d.execute known (.newPolicy c m)).1 = { d with policies := d.policies ++ [(c, r)] } := by simp only [Dividends.execute, hr]
        rw [this]
        refine ih _ hm (fun p hpp => ?_)
        rcases List.mem_append.1 hpp with h | h
        · exact hp p h
        · rw [List.mem_singleton.1 h]; exact hm r (List.mem_of_getElem? hr)
    | readMap i =>
      cases hr : d.policies[i]? with
      | none =>
        have : (d.execute known (.readMap i)).1 = d := by simp only [Dividends.execute, hr]
        rw [this]
        exact ih d hm hp
      | some p =>
        have : (d.execute known (.readMap i)).1 = { d with maps := d.maps ++ [p.2] } := by simp only [Dividends.execute, hr]
        rw [this]
        refine ih _ (fun r hrr => ?_) hp
        rcases List.mem_append.1 hrr with h | h
        · exact hm r h
        · rw [List.mem_singleton.1 h]; exact hp p (List.mem_of_getElem? hr)

/-- **C183 fails:** setting the dividend for a share class raises an exception. -/
theorem C183_counterexample_set (before known : List String) (hi : Attributes.importEsl before = .ok known) (hb : Spec.Alone before) (d : Dividends) (m : Nat) (s : ShareClass) (n : Nat) (p : Price) :
    d.execute known (.setItem m s n p) = (d, true) := by
  have hk : known.contains "tuple<uint64_t, price>" = false := by rw [contains_known hi hb]; decide +kernel
  unfold Dividends.execute
  simp only [hk]
  cases d.maps[m]? <;> rfl

/-- **C183 fails:** whatever a program does, all dividend policies that it can make pay nothing: there is no dividend for any share class, and the total is zero. -/
theorem C183_counterexample (before known : List String) (hi : Attributes.importEsl before = .ok known) (hb : Spec.Alone before) (l : List Statement) (c : Money) (r : Register (Nat × Price))
    (h : (c, r) ∈ (Dividends.run known l).policies) : (∀ s, r.find s = none) ∧ totalDividends c r = .ok ⟨0, c⟩ := by
  have hk : known.contains "tuple<uint64_t, price>" = false := by rw [contains_known hi hb]; decide +kernel
  have hr : r = [] := (run_empty hk l {} (by simp) (by simp)).2 (c, r) h
  rw [hr]
  exact ⟨fun _ => rfl, rfl⟩

/-- **C183 (partial).** Missing: dividends other than none. A policy is made with the currency and the dividends that it is given, which can be read again. -/
theorem C183_policy_partial (known : List String) (d : Dividends) (c : Money) (m : Nat) (r : Register (Nat × Price)) (h : d.maps[m]? = some r) :
    (d.execute known (.newPolicy c m)).1.policies[d.policies.length]? = some (c, r) ∧
    ((d.execute known (.newPolicy c m)).1.execute known (.readMap d.policies.length)).1.maps[d.maps.length]? = some r ∧
    (d.execute known (.newPolicy c m)).2 = false ∧ ((d.execute known (.newPolicy c m)).1.execute known (.readMap d.policies.length)).2 = false := by
  simp [Dividends.execute, h]

/-- A program that makes a policy; with a class for the pairs of a number and a price, it would have the dividends. -/
example : (Dividends.run [] [.newMap, .setItem 0 Company.common 100 ⟨3, ⟨['E', 'U', 'R'], 100⟩⟩, .newPolicy ⟨['E', 'U', 'R'], 100⟩ 0]).policies = [(⟨['E', 'U', 'R'], 100⟩, [])] ∧
    (Dividends.run ["tuple<uint64_t, price>"] [.newMap, .setItem 0 Company.common 100 ⟨3, ⟨['E', 'U', 'R'], 100⟩⟩, .newPolicy ⟨['E', 'U', 'R'], 100⟩ 0]).policies =
      [(⟨['E', 'U', 'R'], 100⟩, [(Company.common, 100, ⟨3, ⟨['E', 'U', 'R'], 100⟩⟩)])] ∧
    totalDividends ⟨['E', 'U', 'R'], 100⟩ [(Company.common, 100, ⟨3, ⟨['E', 'U', 'R'], 100⟩⟩)] = .ok ⟨300, ⟨['E', 'U', 'R'], 100⟩⟩ := by decide +kernel

end Esl.Calls

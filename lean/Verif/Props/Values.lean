import Verif.Model.Values
import Verif.Props.Attributes
/-! C167: values of the library as keys of Python dictionaries. C168: attributes that can be read in Python. -/
namespace Esl.Values

/-! ## Specification -/

/-- The value that a program assigned last for a key that holds `x`. -/
def Spec.last {α β : Type} [DecidableEq α] (l : List (Object α × β)) (x : α) : Option β := ((l.filter fun e => e.1.value = x).getLast?).map (·.2)

/-- Objects at one address are one object. -/
def Spec.OneHeap {α : Type} (l : List (Object α)) : Prop := ∀ a ∈ l, ∀ b ∈ l, a.address = b.address → a.value = b.value

/-- The attributes that cannot be read. -/
def Spec.unreadable : List (String × String) :=
  [ ("agent_timing", "messaging"), ("agent_timing", "acting"), ("activation", "activated"), ("migration", "migrant"), ("deactivation", "deactivated"), ("company", "balance_sheet"), ("company", "shareholders"),
    ("standard", "foreign_currencies"), ("centralized_exchange", "positions"), ("logon_message", "supply"), ("market_data_request_message", "instruments"), ("matching_engine", "books"),
    ("excess_demand_model", "circuit_breaker"), ("excess_demand_model", "methods"), ("excess_demand_model", "quotes"), ("world", "identifier") ]

/-! ## Lemmas -/

theorem identity_eq (a b : List Nat) : Identity.eq a b = true ↔ a = b := by
  induction a generalizing b with
  | nil => cases b <;> simp [Identity.eq]
  | cons x a ih =>
    cases b with
    | nil => simp [Identity.eq]
    | cons y b =>
      by_cases e : x = y
      · subst e; simp [Identity.eq, ih]
      · simp [Identity.eq, e]

theorem addressHash_inj (a b : Nat) (ha : a < 2 ^ 64) (hb : b < 2 ^ 64) (h : addressHash a = addressHash b) : a = b := by
  unfold addressHash at h
  omega

theorem hash_none {α : Type} (c : Methods α) (hc : c.hash = none) (k : Object α) : hash c k = addressHash k.address := by
  unfold hash; rw [hc]

theorem matching_identity {β : Type} (combine : Nat → Nat → Nat) (k : Object (List Nat)) (e : Nat × Object (List Nat) × β) (he : e.1 = hash (identityClass combine) e.2.1)
    (hs : e.2.1.address = k.address → e.2.1.value = k.value) : matching (identityClass combine) k e = true ↔ e.2.1.value = k.value := by
  unfold matching
  rw [he]
  constructor
  · intro h
    simp only [Bool.and_eq_true, Bool.or_eq_true, beq_iff_eq] at h
    rcases h.2 with h | h
    · exact hs h
    · exact (identity_eq _ _).1 h
  · intro h
    have h2 : equal (identityClass combine) e.2.1 k = true := (identity_eq _ _).2 h
    have h1 : hash (identityClass combine) e.2.1 = hash (identityClass combine) k := by simp [hash, identityClass, h]
    simp [h1, h2]

theorem assign_keys {α β : Type} (c : Methods α) (d : Dict α β) (k : Object α) (v : β) (e : Nat × Object α × β) (he : e ∈ d.assign c k v) :
    (e.1 = hash c k ∧ e.2.1 = k) ∨ ∃ e' ∈ d, e'.1 = e.1 ∧ e'.2.1 = e.2.1 := by
  induction d with
  | nil =>
    simp only [Dict.assign, List.mem_singleton] at he
    subst he; exact Or.inl ⟨rfl, rfl⟩
  | cons x d ih =>
    by_cases hm : matching c k x = true
    · simp only [Dict.assign, if_pos hm] at he
      rcases List.mem_cons.1 he with he | he
      · exact Or.inr ⟨x, List.mem_cons_self, by rw [he], by rw [he]⟩
      · exact Or.inr ⟨e, List.mem_cons_of_mem _ he, rfl, rfl⟩
    · simp only [Dict.assign, if_neg hm] at he
      rcases List.mem_cons.1 he with he | he
      · exact Or.inr ⟨x, List.mem_cons_self, by rw [he], by rw [he]⟩
      · rcases ih he with h | ⟨e', h, h'⟩
        · exact Or.inl h
        · exact Or.inr ⟨e', List.mem_cons_of_mem _ h, h'⟩

theorem run_append {α β : Type} (c : Methods α) (l : List (Object α × β)) (k : Object α) (v : β) : Dict.run c (l ++ [(k, v)]) = (Dict.run c l).assign c k v := by
  simp [Dict.run]

/-- Entries have the hash of their key, and the keys are objects of the program. -/
theorem run_keys {α β : Type} (c : Methods α) (r : List (Object α × β)) : ∀ e ∈ Dict.run c r.reverse, e.1 = hash c e.2.1 ∧ ∃ x ∈ r, x.1 = e.2.1 := by
  induction r with
  | nil => intro e he; simp [Dict.run] at he
  | cons y r ih =>
    intro e he
    rw [List.reverse_cons, run_append c _ y.1 y.2] at he
    rcases assign_keys c _ _ _ e he with h | ⟨e', he', h1, h2⟩
    · exact ⟨by rw [h.1, h.2], y, List.mem_cons_self, h.2.symm⟩
    · obtain ⟨g1, x, hx, g2⟩ := ih e' he'
      exact ⟨by rw [← h1, ← h2]; exact g1, x, List.mem_cons_of_mem _ hx, by rw [g2, h2]⟩

theorem get_assign {β : Type} (combine : Nat → Nat → Nat) (d : Dict (List Nat) β) (k k' : Object (List Nat)) (v : β) (hd : ∀ e ∈ d, e.1 = hash (identityClass combine) e.2.1)
    (hk : ∀ e ∈ d, e.2.1.address = k.address → e.2.1.value = k.value) (hk' : ∀ e ∈ d, e.2.1.address = k'.address → e.2.1.value = k'.value) (hkk : k.address = k'.address → k.value = k'.value) :
    (d.assign (identityClass combine) k v).get (identityClass combine) k' = if k.value = k'.value then some v else d.get (identityClass combine) k' := by
  induction d with
  | nil =>
    have hm := matching_identity combine k' (hash (identityClass combine) k, k, v) rfl hkk
    by_cases e : k.value = k'.value
    · simp [Dict.assign, Dict.get, hm.2 e, e]
    · have : matching (identityClass combine) k' (hash (identityClass combine) k, k, v) = false := by
        rw [← Bool.not_eq_true]; exact fun h => e (hm.1 h)
      simp [Dict.assign, Dict.get, this, e]
  | cons x d ih =>
    have hx := hd x List.mem_cons_self
    have m1 := matching_identity combine k x hx (hk x List.mem_cons_self)
    have m2 := matching_identity combine k' x hx (hk' x List.mem_cons_self)
    have m3 := matching_identity combine k' (x.1, x.2.1, v) hx (hk' x List.mem_cons_self)
    have ih' := ih (fun e he => hd e (List.mem_cons_of_mem _ he)) (fun e he => hk e (List.mem_cons_of_mem _ he)) (fun e he => hk' e (List.mem_cons_of_mem _ he))
    by_cases h1 : x.2.1.value = k.value
    · simp only [Dict.assign, if_pos (m1.2 h1)]
      by_cases e : k.value = k'.value
      · simp [Dict.get, m3.2 (h1.trans e), e]
      · have n : ¬ x.2.1.value = k'.value := fun h => e (h1.symm.trans h)
        have f3 : matching (identityClass combine) k' (x.1, x.2.1, v) = false := by rw [← Bool.not_eq_true]; exact fun h => n (m3.1 h)
        have f2 : matching (identityClass combine) k' x = false := by rw [← Bool.not_eq_true]; exact fun h => n (m2.1 h)
        simp [Dict.get, f3, f2, e]
    · have f1 : ¬ matching (identityClass combine) k x = true := fun h => h1 (m1.1 h)
      simp only [Dict.assign, if_neg f1]
      by_cases h2 : x.2.1.value = k'.value
      · have e : ¬ k.value = k'.value := fun h => h1 (h2.trans h.symm)
        simp [Dict.get, m2.2 h2, e]
      · have f2 : matching (identityClass combine) k' x = false := by rw [← Bool.not_eq_true]; exact fun h => h2 (m2.1 h)
        have g1 : Dict.get (identityClass combine) (x :: Dict.assign (identityClass combine) d k v) k' = Dict.get (identityClass combine) (Dict.assign (identityClass combine) d k v) k' := by
          simp [Dict.get, f2]
        have g2 : Dict.get (identityClass combine) (x :: d) k' = Dict.get (identityClass combine) d k' := by simp [Dict.get, f2]
        rw [g1, g2, ih']

/-! ## C167 -/

/-- **C167 (partial).** Missing: all classes but those of identities, and identities that are changed. After any assignments, looking up an identity gives the value that was assigned last for an equal one, whatever the objects, and nothing
if there is none. -/
theorem C167_lookup_partial {β : Type} (combine : Nat → Nat → Nat) (l : List (Object (List Nat) × β)) (k : Object (List Nat)) (h : Spec.OneHeap (k :: l.map (·.1))) :
    (Dict.run (identityClass combine) l).get (identityClass combine) k = Spec.last l k.value := by
  obtain ⟨r, rfl⟩ : ∃ r, l = List.reverse r := ⟨l.reverse, by simp⟩
  induction r with
  | nil => rfl
  | cons y r ih =>
    have sub : ∀ a ∈ k :: (r.reverse.map (·.1)), a ∈ k :: ((y :: r).reverse.map (·.1)) := by
      intro a ha; simp only [List.mem_cons, List.mem_map, List.mem_reverse] at ha ⊢
      rcases ha with ha | ⟨x, hx, hxa⟩
      · exact Or.inl ha
      · exact Or.inr ⟨x, Or.inr hx, hxa⟩
    have ih' := ih fun a ha b hb => h a (sub a ha) b (sub b hb)
    have hy : y.1 ∈ k :: ((y :: r).reverse.map (·.1)) := by simp
    have hk : k ∈ k :: ((y :: r).reverse.map (·.1)) := List.mem_cons_self
    have keys := run_keys (identityClass combine) r
    have mem : ∀ e ∈ Dict.run (identityClass combine) r.reverse, e.2.1 ∈ k :: ((y :: r).reverse.map (·.1)) := by
      intro e he
      obtain ⟨_, x, hx, g⟩ := keys e he
      apply sub
      simp only [List.mem_cons, List.mem_map, List.mem_reverse]
      exact Or.inr ⟨x, hx, g⟩
    rw [List.reverse_cons, run_append _ _ y.1 y.2,
      get_assign combine _ y.1 k y.2 (fun e he => (keys e he).1) (fun e he => h _ (mem e he) _ hy) (fun e he => h _ (mem e he) _ hk) (h _ hy _ hk), ih']
    by_cases e : y.1.value = k.value
    · simp [Spec.last, List.filter_append, e]
    · simp [Spec.last, List.filter_append, e]

example : Spec.OneHeap [(⟨48, [1, 2]⟩ : Object (List Nat)), ⟨16, [1, 2]⟩, ⟨32, [7]⟩, ⟨64, [1, 2]⟩] ∧
    (Dict.run (identityClass (fun a b => a + b)) [((⟨16, [1, 2]⟩ : Object (List Nat)), 'a'), (⟨32, [7]⟩, 'b'), (⟨64, [1, 2]⟩, 'c')]).get (identityClass (fun a b => a + b)) ⟨48, [1, 2]⟩ = some 'c' := by
  unfold Spec.OneHeap; decide +kernel

/-- The classes that define no `__hash__`, such as tickers, prices and quotes: an object is never found in a dictionary unless it is itself one of the objects that were entered, whatever keys are equal to it. -/
theorem C167_counterexample_hash {α β : Type} (c : Methods α) (hc : c.hash = none) (l : List (Object α × β)) (k : Object α) (hk : k.address < 2 ^ 64) (hl : ∀ e ∈ l, e.1.address < 2 ^ 64)
    (hne : ∀ e ∈ l, e.1.address ≠ k.address) : (Dict.run c l).get c k = none := by
  obtain ⟨r, rfl⟩ : ∃ r, l = List.reverse r := ⟨l.reverse, by simp⟩
  have : (Dict.run c r.reverse).find? (matching c k) = none := by
    rw [List.find?_eq_none]
    intro e he hm
    obtain ⟨h1, x, hx, hxe⟩ := run_keys c r e he
    have hx' : x ∈ r.reverse := by simpa using hx
    unfold matching at hm
    simp only [Bool.and_eq_true, beq_iff_eq] at hm
    have h2 : addressHash e.2.1.address = addressHash k.address := by
      have := h1.symm.trans hm.1
      simpa [hash, hc] using this
    rw [← hxe] at h2
    exact hne x hx' (addressHash_inj _ _ (hl x hx') hk h2)
  simp [Dict.get, this]

theorem two_keys {α β : Type} (c : Methods α) (hc : c.hash = none) (x y : Object α) (v w : β) (hx : x.address < 2 ^ 64) (hy : y.address < 2 ^ 64) (hxy : x.address ≠ y.address) :
    (Dict.run c [(x, v)]).get c y = none ∧ (Dict.run c [(x, v), (y, w)]).length = 2 := by
  constructor
  · refine C167_counterexample_hash c hc _ _ hy ?_ ?_
    · intro e he; rw [List.mem_singleton.1 he]; exact hx
    · intro e he; rw [List.mem_singleton.1 he]; exact hxy
  · have hn : ¬ matching c y (hash c x, x, v) = true := by
      intro hm
      unfold matching at hm
      simp only [Bool.and_eq_true, beq_iff_eq] at hm
      have := hm.1
      rw [hash_none _ hc, hash_none _ hc] at this
      exact hxy (addressHash_inj _ _ hx hy this)
    simp [Dict.run, Dict.assign, hn]

/-- An instance: two tickers that compare equal are two keys. -/
theorem C167_counterexample_ticker {β : Type} (t : Ticker.Ticker) (v w : β) (a b : Nat) (ha : a < 2 ^ 64) (hb : b < 2 ^ 64) (hab : a ≠ b) :
    equal tickerClass ⟨a, t⟩ ⟨b, t⟩ = true ∧ (Dict.run tickerClass [(⟨a, t⟩, v)]).get tickerClass ⟨b, t⟩ = none ∧ (Dict.run tickerClass [(⟨a, t⟩, v), (⟨b, t⟩, w)]).length = 2 := by
  have hq : Ticker.eq t t = true := by
    unfold Ticker.eq
    rw [(identity_eq _ _).2 rfl, (identity_eq _ _).2 rfl]; rfl
  have h := two_keys tickerClass rfl ⟨a, t⟩ ⟨b, t⟩ v w ha hb hab
  exact ⟨hq, h.1, h.2⟩

/-- Currencies do not compare by value at all: the currency of a price is not equal to the currency of the same price. -/
theorem C167_counterexample_currency (p : Object Price.P) (a b : Nat) (hab : a ≠ b) :
    (valuation p a).value = (valuation p b).value ∧ equal currencyClass (valuation p a) (valuation p b) = false := by
  refine ⟨rfl, ?_⟩
  show (a == b) = false
  simpa using hab

/-- The digits of an identity can be changed although the attribute is read only; a dictionary then has an entry that neither the object that was entered nor one with the digits of that time finds. -/
theorem C167_counterexample_digits {β : Type} (combine : Nat → Nat → Nat) (a b x y : Nat) (v : β) (hx : x < 2 ^ 63) (hy : y < 2 ^ 63) (hxy : x ≠ y) (hab : a ≠ b) :
    let d := mutate (Dict.run (identityClass combine) [((⟨a, [x]⟩ : Object (List Nat)), v)]) ⟨a, [x]⟩ [y]
    d.1.length = 1 ∧ d.1.get (identityClass combine) d.2 = none ∧ d.1.get (identityClass combine) ⟨b, [x]⟩ = none := by
  have rx : reduceHash x = x := if_pos hx
  have ry : reduceHash y = y := if_pos hy
  have hd : (mutate (Dict.run (identityClass combine) [((⟨a, [x]⟩ : Object (List Nat)), v)]) ⟨a, [x]⟩ [y]) = ([(reduceHash x, ⟨a, [y]⟩, v)], ⟨a, [y]⟩) := by
    simp [mutate, Dict.run, Dict.assign, hash, identityClass, Hashing.identityHash]
  intro d
  have hd' : d = ([(reduceHash x, ⟨a, [y]⟩, v)], ⟨a, [y]⟩) := hd
  rw [hd']
  refine ⟨rfl, ?_, ?_⟩
  · have : matching (identityClass combine) (⟨a, [y]⟩ : Object (List Nat)) (reduceHash x, ⟨a, [y]⟩, v) = false := by
      have h : hash (identityClass combine) (⟨a, [y]⟩ : Object (List Nat)) = reduceHash y := rfl
      unfold matching
      rw [h, rx, ry]; simp [hxy]
    simp [Dict.get, this]
  · have : matching (identityClass combine) (⟨b, [x]⟩ : Object (List Nat)) (reduceHash x, ⟨a, [y]⟩, v) = false := by
      have h : equal (identityClass combine) (⟨a, [y]⟩ : Object (List Nat)) ⟨b, [x]⟩ = false := by
        show Identity.eq [y] [x] = false
        rw [← Bool.not_eq_true, identity_eq]; simp; exact fun e => hxy e.symm
      unfold matching
      simp [h, hab]
    simp [Dict.get, this]

/-! ## C168 -/

theorem known_iff (before known : List String) (hi : Attributes.importEsl before = .ok known) (t : String) : t ∈ known ↔ t ∈ before ∨ t ∈ Attributes.eslModule.map (·.type) := by
  rw [(Attributes.C161_order_partial before Attributes.eslModule).2 known hi t]
  simp [List.mem_map]

/-- The attributes whose values are of classes that the module does not define are those of the list. -/
theorem listed_all : (attributes.all fun a => (match a.kind with | .plain => true | .instance t => (Attributes.eslModule.map (·.type)).contains t) == !(Spec.unreadable.contains (a.owner, a.name))) = true := by
  decide +kernel

theorem listed (a : Attribute) (ha : a ∈ attributes) : ((match a.kind with | .plain => True | .instance t => t ∈ Attributes.eslModule.map (·.type)) ↔ (a.owner, a.name) ∉ Spec.unreadable) := by
  have h := List.all_eq_true.1 listed_all a ha
  rw [beq_iff_eq] at h
  rw [← List.contains_iff_mem (a := (a.owner, a.name))]
  cases hk : a.kind with
  | plain =>
    rw [hk] at h
    cases hc : Spec.unreadable.contains (a.owner, a.name) with
    | true => rw [hc] at h; cases h
    | false => simp
  | «instance» t =>
    rw [hk] at h
    simp only at h ⊢
    rw [← List.contains_iff_mem, h]
    cases Spec.unreadable.contains (a.owner, a.name) <;> simp

/-- **C168 (partial).** Missing: the sixteen attributes of the list. All others give their value. -/
theorem C168_read_partial {α : Type} (before known : List String) (hi : Attributes.importEsl before = .ok known) (a : Attribute) (ha : a ∈ attributes) (hn : (a.owner, a.name) ∉ Spec.unreadable) (v : α) :
    read known a v = .ok v := by
  have h := (listed a ha).2 hn
  unfold read
  cases hk : a.kind with
  | plain => rfl
  | «instance» t =>
    rw [hk] at h
    have : known.contains t = true := by rw [List.contains_iff_mem]; exact (known_iff before known hi t).2 (Or.inr h)
    show (if known.contains t then Outcome.ok v else .throws) = _
    rw [this]; rfl

/-- To read one of those raises an exception, whatever its value, unless another module has defined a class for its type. -/
theorem C168_counterexample {α : Type} (before known : List String) (hi : Attributes.importEsl before = .ok known) (a : Attribute) (ha : a ∈ attributes) (hn : (a.owner, a.name) ∈ Spec.unreadable) (v : α) :
    ∃ t, a.kind = .instance t ∧ (t ∉ before → read known a v = .throws) := by
  unfold read
  cases hk : a.kind with
  | plain => exact absurd hn ((listed a ha).1 (by rw [hk]; trivial))
  | «instance» t =>
    refine ⟨t, rfl, fun hb => ?_⟩
    have hm : t ∉ Attributes.eslModule.map (·.type) := by
      intro x
      exact (listed a ha).1 (by rw [hk]; exact x) hn
    have : known.contains t = false := by
      rw [← Bool.not_eq_true, List.contains_iff_mem]
      exact fun x => ((known_iff before known hi t).1 x).elim hb hm
    show (if known.contains t then Outcome.ok v else .throws) = _
    rw [this]; rfl

example : ∃ known, Attributes.importEsl ["header", "market"] = .ok known ∧ read known ⟨"price", "valuation", .instance "iso_4217"⟩ 'v' = .ok 'v' ∧ read known ⟨"migration", "migrant", .instance "identity<agent>"⟩ 'v' = .throws := by
  refine ⟨_, rfl, by decide +kernel, by decide +kernel⟩

end Esl.Values

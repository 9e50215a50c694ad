import Verif.Model.Scopes
set_option autoImplicit false

/-!
# C89, C90: parameters of functions and of saturated functions
-/

namespace SafeLearning

variable {K : Type}

/-! ## Specification -/

/-- A plain name: no slash and no dot. -/
def _root_.Spec.PlainName (n : TFName) : Prop := ∀ c ∈ n, c ≠ '/' ∧ c ≠ '.'

/-- The contract of TensorFlow's unique names: a plain suffix is added that makes the name new. -/
structure _root_.Spec.UniqueContract (unique : List TFName → TFName → TFName) : Prop where
  fresh : ∀ used n, unique used n ∉ used
  suffix : ∀ used n, ∃ e, Spec.PlainName e ∧ unique used n = n ++ e

/-- The name in the statement is plain. -/
def _root_.Spec.PlainStatement : TFStatement K → Prop
  | .function name _ _ => Spec.PlainName name
  | .add name _ _ => Spec.PlainName name
  | .saturate name _ _ _ => Spec.PlainName name
  | .newVariable name => Spec.PlainName name
  | .call _ => True

/-- The variables that the value of a function depends on if it is evaluated in the variable scope `t`. -/
def _root_.Spec.usesIn : ScopedFn K → TFName → List TFName
  | .leaf s _ (.constructor vs) _, _ => vs.map fun v => s ++ v
  | .leaf _ _ (.evaluation vs) _, t => vs.map fun v => t ++ ['/'] ++ v
  | .added _ _ f g, _ => Spec.usesIn f f.template ++ Spec.usesIn g g.template
  | .saturation _ _ f _ _, t => Spec.usesIn f t

/-- The variables that the value of a function depends on. -/
def _root_.Spec.uses (f : ScopedFn K) : List TFName := Spec.usesIn f f.template

/-- The value of a function really depends on these variables only. -/
theorem evaluate_uses [Field K] [LinearOrder K] (f : ScopedFn K) (t : TFName) (st st' : TFName → Tensor K)
    (h : ∀ v ∈ Spec.usesIn f t, st v = st' v) (pts : List (List K)) :
    f.evaluateIn st t pts = f.evaluateIn st' t pts := by
  induction f generalizing t with
  | leaf s t' kind ev =>
    cases kind with
    | constructor vs =>
      have : (vs.map fun v => st (s ++ v)) = vs.map fun v => st' (s ++ v) :=
        List.map_congr_left fun v hv => h _ (List.mem_map_of_mem hv)
      simp only [ScopedFn.evaluateIn, this]
    | evaluation vs =>
      have : (inTemplate t vs).map st = (inTemplate t vs).map st' := by
        apply List.map_congr_left
        intro v hv
        obtain ⟨w, hw, rfl⟩ := List.mem_map.mp hv
        exact h _ (List.mem_map.mpr ⟨w, hw, by simp⟩)
      simp only [ScopedFn.evaluateIn, this]
  | added s t' f g ihf ihg =>
    simp only [ScopedFn.evaluateIn]
    rw [ihf _ fun v hv => h v (List.mem_append_left _ hv), ihg _ fun v hv => h v (List.mem_append_right _ hv)]
  | saturation s t' f lo up ih =>
    simp only [ScopedFn.evaluateIn]
    rw [ih t h]

/-- A saturation wraps a network, that is, a function that makes its variables when it is evaluated. -/
def _root_.Spec.WrapsNetwork : ScopedFn K → Prop
  | .leaf _ _ (.constructor _) _ => False
  | .leaf _ _ (.evaluation _) _ => True
  | .added _ _ _ _ => False
  | .saturation _ _ f _ _ => Spec.WrapsNetwork f

/-- No part of the function is a saturated network. -/
def _root_.Spec.NoSaturatedNetwork : ScopedFn K → Prop
  | .leaf _ _ _ _ => True
  | .added _ _ f g => Spec.NoSaturatedNetwork f ∧ Spec.NoSaturatedNetwork g
  | .saturation _ _ f _ _ => ¬ Spec.WrapsNetwork f ∧ Spec.NoSaturatedNetwork f

/-! ## Matching -/

theorem matchScope_append (s r : TFName) : matchScope s (s ++ r) = true := by
  induction s with
  | nil => cases r <;> rfl
  | cons c s ih => simp [matchScope, ih]

theorem matchScope_plain {s v : TFName} (hs : ∀ c ∈ s, c ≠ '.') (h : matchScope s v = true) : ∃ r, v = s ++ r := by
  induction s generalizing v with
  | nil => exact ⟨v, rfl⟩
  | cons c s ih =>
    cases v with
    | nil => simp [matchScope] at h
    | cons d v =>
      simp only [matchScope, Bool.and_eq_true, Bool.or_eq_true, beq_iff_eq] at h
      rcases h with ⟨h | h, h'⟩
      · exact absurd h (hs c List.mem_cons_self)
      · obtain ⟨r, rfl⟩ := ih (fun c hc => hs c (List.mem_cons_of_mem _ hc)) h'
        exact ⟨r, by rw [h]; rfl⟩

theorem split_slash {a b r r' : TFName} (ha : ∀ c ∈ a, c ≠ '/') (hb : ∀ c ∈ b, c ≠ '/')
    (h : a ++ '/' :: r = b ++ '/' :: r') : a = b ∧ r = r' := by
  induction a generalizing b with
  | nil =>
    cases b with
    | nil => simpa using h
    | cons d b =>
      simp only [List.nil_append, List.cons_append, List.cons.injEq] at h
      exact absurd h.1.symm (hb d List.mem_cons_self)
  | cons c a ih =>
    cases b with
    | nil =>
      simp only [List.nil_append, List.cons_append, List.cons.injEq] at h
      exact absurd h.1 (ha c List.mem_cons_self)
    | cons d b =>
      simp only [List.cons_append, List.cons.injEq] at h
      obtain ⟨h1, h2⟩ := ih (fun c hc => ha c (List.mem_cons_of_mem _ hc))
        (fun c hc => hb c (List.mem_cons_of_mem _ hc)) h.2
      exact ⟨by rw [h.1, h1], h2⟩

/-- A scope of a function below the name scope `N`: a plain name and a slash. -/
def IsScope (N s : TFName) : Prop := ∃ w, Spec.PlainName w ∧ s = N ++ w ++ ['/']

theorem isScope_match {N s s' r : TFName} (hN : ∀ c ∈ N, c ≠ '.') (hs : IsScope N s) (hs' : IsScope N s')
    (h : matchScope s (s' ++ r) = true) : s = s' := by
  obtain ⟨w, hw, rfl⟩ := hs
  obtain ⟨w', hw', rfl⟩ := hs'
  obtain ⟨r', hr'⟩ := matchScope_plain (by
    intro c hc
    simp only [List.mem_append, List.mem_singleton] at hc
    rcases hc with (hc | hc) | hc
    · exact hN c hc
    · exact (hw c hc).2
    · rw [hc]; decide) h
  simp only [List.append_assoc, List.singleton_append, List.append_cancel_left_eq] at hr'
  obtain ⟨h1, -⟩ := split_slash (fun c hc => (hw' c hc).1) (fun c hc => (hw c hc).1) hr'
  rw [h1]

theorem isScope_not_match {N s w : TFName} (hN : ∀ c ∈ N, c ≠ '.') (hs : IsScope N s) (hw : Spec.PlainName w) :
    matchScope s (N ++ w) = false := by
  rw [Bool.eq_false_iff]
  intro h
  obtain ⟨w', hw', rfl⟩ := hs
  obtain ⟨r', hr'⟩ := matchScope_plain (by
    intro c hc
    simp only [List.mem_append, List.mem_singleton] at hc
    rcases hc with (hc | hc) | hc
    · exact hN c hc
    · exact (hw' c hc).2
    · rw [hc]; decide) h
  simp only [List.append_assoc, List.singleton_append, List.append_cancel_left_eq] at hr'
  have : '/' ∈ w := by rw [hr']; simp
  exact (hw _ this).1 rfl

/-! ## The invariant -/

/-- The variables that belong to the scope of an object, once they are made. -/
def owned : ScopedFn K → TFName → List TFName
  | .leaf s _ (.constructor vs) _, _ => vs.map fun v => s ++ v
  | .leaf _ _ (.evaluation vs) _, t => inTemplate t vs
  | .added _ _ _ _, _ => []
  | .saturation _ _ f _ _, t => ownedBelow f t
where
  ownedBelow : ScopedFn K → TFName → List TFName
    | .leaf _ _ (.constructor _) _, _ => []
    | .leaf _ _ (.evaluation vs) _, t => inTemplate t vs
    | .added _ _ _ _, _ => []
    | .saturation _ _ f _ _, t => ownedBelow f t

/-- The parts of an object are objects. -/
def Parts (objs : List (ScopedFn K)) : ScopedFn K → Prop
  | .leaf _ _ _ _ => True
  | .added _ _ f g => f ∈ objs ∧ g ∈ objs
  | .saturation _ _ f _ _ => f ∈ objs ∧ f.hasDims = true

/-- The variables of the graph that match the scope. -/
def inScope (g : TFGraph) (s : TFName) : List TFName := g.vars.filter fun v => matchScope s v

/-- A leaf that makes its variables in the constructor. -/
def IsConstructorLeaf : ScopedFn K → Prop
  | .leaf _ _ (.constructor _) _ => True
  | _ => False

/-- What holds for the objects. -/
structure ObjInv (N : TFName) (objs : List (ScopedFn K)) : Prop where
  scopes : ∀ f ∈ objs, IsScope N f.scope
  nodup : (objs.map ScopedFn.scope).Nodup
  templates : ∀ f ∈ objs, ∃ e, f.template = f.scope ++ e
  parts : ∀ f ∈ objs, Parts objs f

/-- What holds for the variables. -/
structure VarInv (N : TFName) (objs : List (ScopedFn K)) (g : TFGraph) : Prop where
  vars : ∀ v ∈ g.vars, (∃ w, Spec.PlainName w ∧ v = N ++ w) ∨ ∃ f ∈ objs, ∃ r, v = f.scope ++ r
  made : ∀ f ∈ objs, inScope g f.scope = [] ∨ inScope g f.scope = owned f f.template
  constructed : ∀ f ∈ objs, IsConstructorLeaf f → inScope g f.scope = owned f f.template

/-- The invariant of programs. -/
structure ScopeInv (N : TFName) (p : TFProgram K) : Prop where
  objs : ObjInv N p.objs
  vars : VarInv N p.objs p.graph
  used : ∀ f ∈ p.objs, ∃ u ∈ p.graph.names, f.scope = u ++ ['/']

theorem ObjInv.eq_of_scope {N : TFName} {objs : List (ScopedFn K)} (h : ObjInv N objs) {f g : ScopedFn K}
    (hf : f ∈ objs) (hg : g ∈ objs) (e : f.scope = g.scope) : f = g := by
  have := h.nodup
  exact List.inj_on_of_nodup_map this hf hg e

theorem ownedBelow_prefix (f : ScopedFn K) (t : TFName) : ∀ v ∈ owned.ownedBelow f t, ∃ r, v = t ++ r := by
  induction f with
  | leaf s t' kind ev =>
    intro v hv
    cases kind with
    | constructor vs => simp [owned.ownedBelow] at hv
    | evaluation vs =>
      obtain ⟨w, -, rfl⟩ := List.mem_map.mp hv
      exact ⟨_, rfl⟩
  | added s t' f g _ _ => intro v hv; simp [owned.ownedBelow] at hv
  | saturation s t' f lo up ih => exact ih

theorem owned_prefix {N : TFName} {objs : List (ScopedFn K)} (h : ObjInv N objs) {f : ScopedFn K} (hf : f ∈ objs) :
    ∀ v ∈ owned f f.template, ∃ r, v = f.scope ++ r := by
  intro v hv
  obtain ⟨e, he⟩ := h.templates f hf
  cases f with
  | leaf s t kind ev =>
    cases kind with
    | constructor vs =>
      obtain ⟨w, -, rfl⟩ := List.mem_map.mp hv
      exact ⟨w, rfl⟩
    | evaluation vs =>
      obtain ⟨w, -, rfl⟩ := List.mem_map.mp hv
      have he' : t = s ++ e := he
      refine ⟨e ++ '/' :: w, ?_⟩
      show t ++ '/' :: w = s ++ (e ++ '/' :: w)
      rw [he', List.append_assoc]
  | added s t f g => simp [owned] at hv
  | saturation s t f lo up =>
    obtain ⟨r, rfl⟩ := ownedBelow_prefix f t v hv
    have he' : t = s ++ e := he
    refine ⟨e ++ r, ?_⟩
    show t ++ r = s ++ (e ++ r)
    rw [he', List.append_assoc]

theorem addVars_inv {N : TFName} (hN : ∀ c ∈ N, c ≠ '.') {objs : List (ScopedFn K)} (ho : ObjInv N objs) {g : TFGraph}
    (hg : VarInv N objs g) {f : ScopedFn K} (hf : f ∈ objs) :
    VarInv N objs (g.addVars (owned f f.template)) ∧
      inScope (g.addVars (owned f f.template)) f.scope = owned f f.template := by
  have hpre := owned_prefix ho hf
  have hmatch : ∀ v ∈ owned f f.template, matchScope f.scope v = true := by
    intro v hv
    obtain ⟨r, rfl⟩ := hpre v hv
    exact matchScope_append _ _
  have hother : ∀ h ∈ objs, h ≠ f → inScope (g.addVars (owned f f.template)) h.scope = inScope g h.scope := by
    intro h hh hne
    unfold inScope TFGraph.addVars
    dsimp only
    rw [List.filter_append]
    have : List.filter (fun v => matchScope h.scope v) (List.filter (fun v => decide (v ∉ g.vars))
        (owned f f.template)) = [] := by
      rw [List.filter_eq_nil_iff]
      intro v hv hm
      obtain ⟨r, rfl⟩ := hpre v (List.mem_of_mem_filter hv)
      exact hne (ho.eq_of_scope hh hf (isScope_match hN (ho.scopes h hh) (ho.scopes f hf) hm))
    rw [this, List.append_nil]
  have hself : inScope (g.addVars (owned f f.template)) f.scope = owned f f.template := by
    unfold inScope TFGraph.addVars
    dsimp only
    rw [List.filter_append]
    rcases hg.made f hf with h0 | h0
    · have h1 : List.filter (fun v => decide (v ∉ g.vars)) (owned f f.template) = owned f f.template := by
        rw [List.filter_eq_self]
        intro v hv
        rw [decide_eq_true_eq]
        intro hvg
        have : v ∈ inScope g f.scope := List.mem_filter.mpr ⟨hvg, hmatch v hv⟩
        rw [h0] at this
        exact absurd this List.not_mem_nil
      rw [h1]
      unfold inScope at h0
      rw [h0, List.nil_append, List.filter_eq_self]
      exact hmatch
    · have h1 : List.filter (fun v => decide (v ∉ g.vars)) (owned f f.template) = [] := by
        rw [List.filter_eq_nil_iff]
        intro v hv
        rw [decide_eq_true_eq, not_not]
        rw [← h0] at hv
        exact List.mem_of_mem_filter hv
      rw [h1]
      unfold inScope at h0
      rw [h0]
      simp
  refine ⟨⟨?_, ?_, ?_⟩, hself⟩
  · intro v hv
    rcases List.mem_append.mp hv with hv | hv
    · exact hg.vars v hv
    · exact Or.inr ⟨f, hf, hpre v (List.mem_of_mem_filter hv)⟩
  · intro h hh
    by_cases e : h = f
    · rw [e]; exact Or.inr hself
    · rw [hother h hh e]; exact hg.made h hh
  · intro h hh hc
    by_cases e : h = f
    · rw [e]; exact hself
    · rw [hother h hh e]; exact hg.constructed h hh hc

theorem addVars_nil (g : TFGraph) : g.addVars [] = g := by
  unfold TFGraph.addVars
  simp

theorem addVars_mono (g : TFGraph) (vs : List TFName) : ∃ l, (g.addVars vs).vars = g.vars ++ l := ⟨_, rfl⟩

theorem build_below {N : TFName} {objs : List (ScopedFn K)} (ho : ObjInv N objs) (f : ScopedFn K) (hf : f ∈ objs)
    (hd : f.hasDims = true) (t : TFName) (g : TFGraph) : f.build t g = g.addVars (owned.ownedBelow f t) := by
  induction f with
  | leaf s t' kind ev =>
    cases kind with
    | constructor vs => exact (addVars_nil g).symm
    | evaluation vs => rfl
  | added s t' f h _ _ => cases hd
  | saturation s t' f lo up ih =>
    have := ho.parts _ hf
    exact ih this.1 this.2

/-- Calling an object keeps the invariant, its variables exist afterwards, and no variable is removed. -/
theorem call_inv {N : TFName} (hN : ∀ c ∈ N, c ≠ '.') {objs : List (ScopedFn K)} (ho : ObjInv N objs)
    (f : ScopedFn K) (hf : f ∈ objs) (g : TFGraph) (hg : VarInv N objs g) :
    VarInv N objs (f.call g) ∧ inScope (f.call g) f.scope = owned f f.template ∧
      (∃ l, (f.call g).vars = g.vars ++ l) ∧ (f.call g).names = g.names := by
  induction f generalizing g with
  | leaf s t kind ev =>
    cases kind with
    | constructor vs => exact ⟨hg, hg.constructed _ hf trivial, ⟨[], by simp [ScopedFn.call, ScopedFn.build]⟩, rfl⟩
    | evaluation vs =>
      obtain ⟨h1, h2⟩ := addVars_inv hN ho hg hf
      exact ⟨h1, h2, addVars_mono _ _, rfl⟩
  | added s t f h ihf ihh =>
    obtain ⟨hp1, hp2⟩ := ho.parts _ hf
    obtain ⟨a1, -, ⟨l, hl⟩, a4⟩ := ihf hp1 g hg
    obtain ⟨b1, -, ⟨l', hl'⟩, b4⟩ := ihh hp2 _ a1
    refine ⟨b1, ?_, ⟨l ++ l', ?_⟩, b4.trans a4⟩
    · rcases b1.made _ hf with h0 | h0 <;> exact h0
    · show (h.call (f.call g)).vars = _
      rw [hl', hl, List.append_assoc]
  | saturation s t f lo up ih =>
    have hp := ho.parts _ hf
    have e : (ScopedFn.saturation s t f lo up).call g =
        g.addVars (owned (.saturation s t f lo up) (ScopedFn.saturation s t f lo up).template) :=
      build_below ho f hp.1 hp.2 t g
    obtain ⟨h1, h2⟩ := addVars_inv hN ho hg hf
    rw [e]
    exact ⟨h1, h2, addVars_mono _ _, rfl⟩

theorem reserve_spec {unique : List TFName → TFName → TFName} (hu : Spec.UniqueContract unique) {N : TFName}
    {p : TFProgram K} (h : ScopeInv N p) {name : TFName} (hn : Spec.PlainName name) :
    ∃ u s t, p.graph.reserve unique ⟨N, []⟩ name =
        ({ p.graph with names := u :: p.graph.names, templates := t :: p.graph.templates }, s, t) ∧
      s = u ++ ['/'] ∧ IsScope N s ∧ (∀ f ∈ p.objs, f.scope ≠ s) ∧ ∃ e, t = s ++ e := by
  obtain ⟨e, he, hu1⟩ := hu.suffix p.graph.names (N ++ name)
  have hu2 := hu.fresh p.graph.names (N ++ name)
  refine ⟨unique p.graph.names (N ++ name), _, _, rfl, rfl, ⟨name ++ e, ?_, ?_⟩, ?_, ?_⟩
  · intro c hc
    rcases List.mem_append.mp hc with hc | hc
    · exact hn c hc
    · exact he c hc
  · rw [hu1]; simp only [List.append_assoc]
  · intro f hf e'
    obtain ⟨u, hu3, hu4⟩ := h.used f hf
    rw [hu4] at e'
    have := List.append_cancel_right e'
    rw [this] at hu3
    exact hu2 hu3
  · obtain ⟨e', -, he'⟩ := hu.suffix p.graph.templates (unique p.graph.names (N ++ name) ++ ['/'])
    exact ⟨e', he'⟩

theorem parts_mono {objs : List (ScopedFn K)} {l : List (ScopedFn K)} {f : ScopedFn K} (h : Parts objs f) :
    Parts (objs ++ l) f := by
  cases f with
  | leaf s t k ev => trivial
  | added s t f g => exact ⟨List.mem_append_left _ h.1, List.mem_append_left _ h.2⟩
  | saturation s t f lo up => exact ⟨List.mem_append_left _ h.1, h.2⟩

theorem inScope_new {N : TFName} (hN : ∀ c ∈ N, c ≠ '.') {objs : List (ScopedFn K)} (ho : ObjInv N objs)
    {g : TFGraph} (hg : VarInv N objs g) {s : TFName} (hs : IsScope N s) (hnew : ∀ f ∈ objs, f.scope ≠ s) :
    inScope g s = [] := by
  unfold inScope
  rw [List.filter_eq_nil_iff]
  intro v hv hm
  rcases hg.vars v hv with ⟨w, hw, rfl⟩ | ⟨f, hf, r, rfl⟩
  · rw [isScope_not_match hN hs hw] at hm; cases hm
  · exact hnew f hf (isScope_match hN hs (ho.scopes f hf) hm).symm

/-- A new object keeps the invariant. -/
theorem add_obj {N : TFName} (hN : ∀ c ∈ N, c ≠ '.') {p : TFProgram K} (h : ScopeInv N p) {g' : TFGraph}
    (hnames : ∀ u ∈ p.graph.names, u ∈ g'.names) (o : ScopedFn K) (hs : IsScope N o.scope)
    (hnew : ∀ f ∈ p.objs, f.scope ≠ o.scope) (ht : ∃ e, o.template = o.scope ++ e) (hp : Parts p.objs o)
    (hu : ∃ u ∈ g'.names, o.scope = u ++ ['/']) (vs : List TFName) (hv : g'.vars = p.graph.vars ++ vs)
    (hvs : vs = [] ∧ ¬ IsConstructorLeaf o ∨ vs = owned o o.template) :
    ScopeInv N ⟨g', p.objs ++ [o]⟩ := by
  have hobj : ObjInv N (p.objs ++ [o]) := by
    refine ⟨?_, ?_, ?_, ?_⟩
    · intro f hf
      rcases List.mem_append.mp hf with hf | hf
      · exact h.objs.scopes f hf
      · rw [List.mem_singleton.mp hf]; exact hs
    · rw [List.map_append, List.nodup_append]
      refine ⟨h.objs.nodup, by simp, ?_⟩
      intro a ha b hb
      obtain ⟨f, hf, rfl⟩ := List.mem_map.mp ha
      simp only [List.map_cons, List.map_nil, List.mem_singleton] at hb
      rw [hb]
      exact hnew f hf
    · intro f hf
      rcases List.mem_append.mp hf with hf | hf
      · exact h.objs.templates f hf
      · rw [List.mem_singleton.mp hf]; exact ht
    · intro f hf
      rcases List.mem_append.mp hf with hf | hf
      · exact parts_mono (h.objs.parts f hf)
      · rw [List.mem_singleton.mp hf]; exact parts_mono hp
  have ho : o ∈ p.objs ++ [o] := by simp
  have hpre : ∀ v ∈ vs, ∃ r, v = o.scope ++ r := by
    rcases hvs with ⟨rfl, -⟩ | rfl
    · simp
    · exact owned_prefix hobj ho
  have hold : ∀ f ∈ p.objs, inScope g' f.scope = inScope p.graph f.scope := by
    intro f hf
    unfold inScope
    rw [hv, List.filter_append]
    have : List.filter (fun v => matchScope f.scope v) vs = [] := by
      rw [List.filter_eq_nil_iff]
      intro v hv hm
      obtain ⟨r, rfl⟩ := hpre v hv
      exact hnew f hf (isScope_match hN (h.objs.scopes f hf) hs hm)
    rw [this, List.append_nil]
  have hnewscope : inScope g' o.scope = vs := by
    have h0 := inScope_new hN h.objs h.vars hs hnew
    unfold inScope at h0 ⊢
    rw [hv, List.filter_append, h0, List.nil_append, List.filter_eq_self]
    intro v hv
    obtain ⟨r, rfl⟩ := hpre v hv
    exact matchScope_append _ _
  refine ⟨hobj, ⟨?_, ?_, ?_⟩, ?_⟩
  · intro v hv'
    rw [hv] at hv'
    rcases List.mem_append.mp hv' with hv' | hv'
    · rcases h.vars.vars v hv' with h1 | ⟨f, hf, h1⟩
      · exact Or.inl h1
      · exact Or.inr ⟨f, List.mem_append_left _ hf, h1⟩
    · exact Or.inr ⟨o, ho, hpre v hv'⟩
  · intro f hf
    rcases List.mem_append.mp hf with hf | hf
    · rw [hold f hf]; exact h.vars.made f hf
    · rw [List.mem_singleton.mp hf, hnewscope]
      rcases hvs with ⟨h1, -⟩ | h1
      · exact Or.inl h1
      · exact Or.inr h1
  · intro f hf hc
    rcases List.mem_append.mp hf with hf | hf
    · rw [hold f hf]; exact h.vars.constructed f hf hc
    · rw [List.mem_singleton.mp hf] at hc ⊢
      rw [hnewscope]
      rcases hvs with ⟨-, h1⟩ | h1
      · exact absurd hc h1
      · exact h1
  · intro f hf
    rcases List.mem_append.mp hf with hf | hf
    · obtain ⟨u, hu1, hu2⟩ := h.used f hf
      exact ⟨u, hnames u hu1, hu2⟩
    · rw [List.mem_singleton.mp hf]; exact hu

/-- Every statement keeps the invariant; objects stay and variables are only added. -/
theorem step_inv {unique : List TFName → TFName → TFName} (hu : Spec.UniqueContract unique) {N : TFName}
    (hN : ∀ c ∈ N, c ≠ '.') {p : TFProgram K} (h : ScopeInv N p) (st : TFStatement K)
    (hst : Spec.PlainStatement st) :
    ScopeInv N (p.step unique ⟨N, []⟩ st) ∧ (∃ l, (p.step unique ⟨N, []⟩ st).objs = p.objs ++ l) ∧
      ∃ l, (p.step unique ⟨N, []⟩ st).graph.vars = p.graph.vars ++ l := by
  cases st with
  | function name kind ev =>
    obtain ⟨u, s, t, hr, hs, hsc, hnew, ht⟩ := reserve_spec hu h (name := name) hst
    unfold TFProgram.step
    dsimp only
    rw [hr]
    dsimp only
    refine ⟨?_, ⟨_, rfl⟩, ⟨_, rfl⟩⟩
    refine add_obj hN h (fun v hv => List.mem_cons_of_mem _ hv) (.leaf s t kind ev) hsc hnew ht trivial
      ⟨u, List.mem_cons_self, hs⟩ _ rfl ?_
    cases kind with
    | constructor vs => exact Or.inr rfl
    | evaluation vs => exact Or.inl ⟨rfl, id⟩
  | add name i j =>
    obtain ⟨u, s, t, hr, hs, hsc, hnew, ht⟩ := reserve_spec hu h (name := name) hst
    unfold TFProgram.step
    dsimp only
    split
    · rename_i f f' hi hj
      rw [hr]
      dsimp only
      refine ⟨?_, ⟨_, rfl⟩, ⟨[], by simp⟩⟩
      exact add_obj hN h (fun v hv => List.mem_cons_of_mem _ hv) (.added s t f f') hsc hnew ht
        ⟨List.mem_of_getElem? hi, List.mem_of_getElem? hj⟩ ⟨u, List.mem_cons_self, hs⟩ [] (by simp)
        (Or.inl ⟨rfl, id⟩)
    · exact ⟨h, ⟨[], by simp⟩, ⟨[], by simp⟩⟩
  | saturate name i lo up =>
    obtain ⟨u, s, t, hr, hs, hsc, hnew, ht⟩ := reserve_spec hu h (name := name) hst
    unfold TFProgram.step
    dsimp only
    split
    · rename_i f hi
      rw [hr]
      dsimp only
      by_cases hd : f.hasDims = true
      · rw [if_pos hd]
        refine ⟨?_, ⟨_, rfl⟩, ⟨[], by simp⟩⟩
        exact add_obj hN h (fun v hv => List.mem_cons_of_mem _ hv) (.saturation s t f lo up) hsc hnew ht
          ⟨List.mem_of_getElem? hi, hd⟩ ⟨u, List.mem_cons_self, hs⟩ [] (by simp) (Or.inl ⟨rfl, id⟩)
      · rw [if_neg hd]
        refine ⟨⟨h.objs, ⟨h.vars.vars, h.vars.made, h.vars.constructed⟩, ?_⟩, ⟨[], by simp⟩, ⟨[], by simp⟩⟩
        intro f hf
        obtain ⟨v, hv, e⟩ := h.used f hf
        exact ⟨v, List.mem_cons_of_mem _ hv, e⟩
    · exact ⟨h, ⟨[], by simp⟩, ⟨[], by simp⟩⟩
  | call i =>
    unfold TFProgram.step
    dsimp only
    split
    · rename_i f hi
      obtain ⟨h1, -, h3, h4⟩ := call_inv hN h.objs f (List.mem_of_getElem? hi) p.graph h.vars
      refine ⟨⟨h.objs, h1, ?_⟩, ⟨[], by simp⟩, h3⟩
      dsimp only
      rw [h4]
      exact h.used
    · exact ⟨h, ⟨[], by simp⟩, ⟨[], by simp⟩⟩
  | newVariable name =>
    unfold TFProgram.step
    dsimp only
    obtain ⟨e, he, hu1⟩ := hu.suffix p.graph.names (N ++ name)
    have hw : Spec.PlainName (name ++ e) := by
      intro c hc
      rcases List.mem_append.mp hc with hc | hc
      · exact hst c hc
      · exact he c hc
    have hkeep : ∀ f ∈ p.objs, inScope { p.graph with
        names := unique p.graph.names (N ++ name) :: p.graph.names
        vars := p.graph.vars ++ [unique p.graph.names (N ++ name)] } f.scope = inScope p.graph f.scope := by
      intro f hf
      unfold inScope
      dsimp only
      rw [List.filter_append]
      have := isScope_not_match hN (h.objs.scopes f hf) hw
      rw [hu1, List.append_assoc, List.filter_cons_of_neg (by rw [this]; decide), List.filter_nil, List.append_nil]
    refine ⟨⟨h.objs, ⟨?_, ?_, ?_⟩, ?_⟩, ⟨[], by simp⟩, ⟨_, rfl⟩⟩
    · intro v hv
      rcases List.mem_append.mp hv with hv | hv
      · exact h.vars.vars v hv
      · rw [List.mem_singleton.mp hv]
        exact Or.inl ⟨name ++ e, hw, by rw [hu1, List.append_assoc]⟩
    · intro f hf; rw [hkeep f hf]; exact h.vars.made f hf
    · intro f hf hc; rw [hkeep f hf]; exact h.vars.constructed f hf hc
    · intro f hf
      obtain ⟨v, hv, e⟩ := h.used f hf
      exact ⟨v, List.mem_cons_of_mem _ hv, e⟩

theorem foldl_inv {unique : List TFName → TFName → TFName} (hu : Spec.UniqueContract unique) {N : TFName}
    (hN : ∀ c ∈ N, c ≠ '.') (stmts : List (TFStatement K)) (hs : ∀ st ∈ stmts, Spec.PlainStatement st)
    (p : TFProgram K) (h : ScopeInv N p) :
    let q := stmts.foldl (fun p s => p.step unique ⟨N, []⟩ s) p
    ScopeInv N q ∧ (∃ l, q.objs = p.objs ++ l) ∧ ∃ l, q.graph.vars = p.graph.vars ++ l := by
  induction stmts generalizing p with
  | nil => exact ⟨h, ⟨[], by simp⟩, ⟨[], by simp⟩⟩
  | cons st rest ih =>
    obtain ⟨h1, ⟨l1, h2⟩, ⟨l2, h3⟩⟩ := step_inv hu hN h st (hs st List.mem_cons_self)
    obtain ⟨k1, ⟨m1, k2⟩, ⟨m2, k3⟩⟩ := ih (fun st hst => hs st (List.mem_cons_of_mem _ hst)) _ h1
    refine ⟨k1, ⟨l1 ++ m1, ?_⟩, ⟨l2 ++ m2, ?_⟩⟩
    · rw [← List.append_assoc, ← h2]; exact k2
    · rw [← List.append_assoc, ← h3]; exact k3

theorem empty_inv (N : TFName) : ScopeInv N (⟨⟨[], [], []⟩, []⟩ : TFProgram K) := by
  refine ⟨⟨?_, ?_, ?_, ?_⟩, ⟨?_, ?_, ?_⟩, ?_⟩ <;> simp

theorem run_inv {unique : List TFName → TFName → TFName} (hu : Spec.UniqueContract unique) {N : TFName}
    (hN : ∀ c ∈ N, c ≠ '.') (stmts : List (TFStatement K)) (hs : ∀ st ∈ stmts, Spec.PlainStatement st) :
    ScopeInv N (TFProgram.run unique ⟨N, []⟩ stmts) :=
  (foldl_inv hu hN stmts hs _ (empty_inv N)).1

/-! ## C89 -/

/-- All variables of the parts of the function are made. -/
def Ready (g : TFGraph) : ScopedFn K → Prop
  | .leaf s t k ev => inScope g s = owned (.leaf s t k ev) t
  | .added _ _ f h => Ready g f ∧ Ready g h
  | .saturation _ _ _ _ _ => True

theorem inScope_keep {N : TFName} {objs : List (ScopedFn K)} {g g' : TFGraph} (hg' : VarInv N objs g')
    (hv : ∃ l, g'.vars = g.vars ++ l) {f : ScopedFn K} (hf : f ∈ objs)
    (h : inScope g f.scope = owned f f.template) : inScope g' f.scope = owned f f.template := by
  rcases hg'.made f hf with h0 | h0
  · obtain ⟨l, hl⟩ := hv
    have : inScope g f.scope = [] := by
      unfold inScope at h0 ⊢
      rw [hl, List.filter_append, List.append_eq_nil_iff] at h0
      exact h0.1
    rw [h0, ← h, this]
  · exact h0

theorem ready_keep {N : TFName} {objs : List (ScopedFn K)} (ho : ObjInv N objs) {g g' : TFGraph}
    (hg' : VarInv N objs g') (hv : ∃ l, g'.vars = g.vars ++ l) (f : ScopedFn K) (hf : f ∈ objs) (h : Ready g f) :
    Ready g' f := by
  induction f with
  | leaf s t k ev => exact inScope_keep hg' hv hf h
  | added s t f f' ih ih' =>
    have hp := ho.parts _ hf
    exact ⟨ih hp.1 h.1, ih' hp.2 h.2⟩
  | saturation s t f lo up ih => trivial

theorem ready_call {N : TFName} (hN : ∀ c ∈ N, c ≠ '.') {objs : List (ScopedFn K)} (ho : ObjInv N objs)
    (f : ScopedFn K) (hf : f ∈ objs) (g : TFGraph) (hg : VarInv N objs g) : Ready (f.call g) f := by
  induction f generalizing g with
  | leaf s t k ev => exact (call_inv hN ho _ hf g hg).2.1
  | added s t f f' ih ih' =>
    have hp := ho.parts _ hf
    obtain ⟨h1, -, -, -⟩ := call_inv hN ho f hp.1 g hg
    obtain ⟨k1, -, k3, -⟩ := call_inv hN ho f' hp.2 _ h1
    exact ⟨ready_keep ho k1 k3 f hp.1 (ih hp.1 g hg), ih' hp.2 _ h1⟩
  | saturation s t f lo up ih => trivial

/-- Below saturations that do not wrap a network there is a function that makes its variables in the constructor. -/
theorem wrapped_constructor {N : TFName} {objs : List (ScopedFn K)} (ho : ObjInv N objs) (f : ScopedFn K)
    (hf : f ∈ objs) (hd : f.hasDims = true) (hw : ¬ Spec.WrapsNetwork f) (t : TFName) :
    ∃ c ∈ objs, IsConstructorLeaf c ∧ f.scopeName = c.scope ∧ Spec.usesIn f t = owned c c.template := by
  induction f with
  | leaf s t' kind ev =>
    cases kind with
    | constructor vs => exact ⟨_, hf, trivial, rfl, rfl⟩
    | evaluation vs => exact absurd trivial hw
  | added s t' f h _ _ => cases hd
  | saturation s t' f lo up ih =>
    have hp := ho.parts _ hf
    exact ih hp.1 hp.2 hw

theorem ready_parameters {N : TFName} {objs : List (ScopedFn K)} (ho : ObjInv N objs) {g : TFGraph}
    (hg : VarInv N objs g) (f : ScopedFn K) (hf : f ∈ objs) (hn : Spec.NoSaturatedNetwork f) (h : Ready g f) :
    f.parameters g = Spec.uses f := by
  induction f with
  | leaf s t k ev =>
    show inScope g s = _
    have h' : inScope g s = owned (.leaf s t k ev) t := h
    rw [h']
    cases k with
    | constructor vs => rfl
    | evaluation vs =>
      show vs.map _ = vs.map _
      exact List.map_congr_left fun v _ => by show t ++ '/' :: v = t ++ ['/'] ++ v; simp
  | added s t f f' ih ih' =>
    have hp := ho.parts _ hf
    show f.parameters g ++ f'.parameters g = Spec.uses f ++ Spec.uses f'
    rw [ih hp.1 hn.1 h.1, ih' hp.2 hn.2 h.2]
  | saturation s t f lo up ih =>
    have hp := ho.parts _ hf
    obtain ⟨c, hc, h1, h2, h3⟩ := wrapped_constructor ho f hp.1 hp.2 hn.1 t
    show inScope g f.scopeName = Spec.usesIn f t
    rw [h2, h3]
    exact hg.constructed c hc h1

/-- **C89 (parameters, partial).** In every program with plain names, functions, sums, saturations, calls and other variables: once a function has been called, its `parameters` are exactly the
variables that its value depends on, in the order of creation, whatever is done before and after; in particular further calls do not make new variables for it. Missing: names with dots and
slashes, functions made in an open variable scope and saturated networks (`C89_refuted_dot`, `C89_refuted_slash`, `C89_refuted_variable_scope`, `C90_refuted`). -/
theorem C89_parameters_partial (unique : List TFName → TFName → TFName) (hu : Spec.UniqueContract unique) (N : TFName)
    (hN : ∀ c ∈ N, c ≠ '.') (before after : List (TFStatement K)) (hb : ∀ st ∈ before, Spec.PlainStatement st)
    (ha : ∀ st ∈ after, Spec.PlainStatement st) (i : ℕ) (f : ScopedFn K)
    (hi : (TFProgram.run unique ⟨N, []⟩ before).objs[i]? = some f) (hn : Spec.NoSaturatedNetwork f) :
    let p := TFProgram.run unique ⟨N, []⟩ (before ++ [.call i] ++ after)
    p.objs[i]? = some f ∧ f.parameters p.graph = Spec.uses f := by
  intro p
  have h1 := run_inv hu hN before hb
  set q := TFProgram.run unique ⟨N, []⟩ before with hq
  have hf : f ∈ q.objs := List.mem_of_getElem? hi
  have hstep : q.step unique ⟨N, []⟩ (.call i) = { q with graph := f.call q.graph } := by
    unfold TFProgram.step
    dsimp only
    rw [hi]
  have hp : p = after.foldl (fun p s => p.step unique ⟨N, []⟩ s) { q with graph := f.call q.graph } := by
    rw [← hstep]
    show List.foldl _ _ _ = _
    rw [List.foldl_append, List.foldl_append]
    rfl
  have h2 := (step_inv hu hN h1 (.call i) trivial).1
  rw [hstep] at h2
  obtain ⟨h3, ⟨l, h4⟩, h5⟩ := foldl_inv hu hN after ha _ h2
  rw [← hp] at h3 h4 h5
  have hr := ready_call hN h1.objs f hf q.graph h1.vars
  have hfp : f ∈ p.objs := by rw [h4]; exact List.mem_append_left _ hf
  refine ⟨?_, ready_parameters h3.objs h3.vars f hfp hn (ready_keep h3.objs h3.vars h5 f hfp hr)⟩
  rw [h4]
  have hlt : i < q.objs.length := (List.getElem?_eq_some_iff.mp hi).1
  rw [List.getElem?_append_left hlt]
  exact hi

/-- **C89 (separate functions, partial).** In every program with plain names, different functions of child classes never have a common parameter, even if
they were given the same name. -/
theorem C89_disjoint_partial (unique : List TFName → TFName → TFName) (hu : Spec.UniqueContract unique) (N : TFName)
    (hN : ∀ c ∈ N, c ≠ '.') (stmts : List (TFStatement K)) (hs : ∀ st ∈ stmts, Spec.PlainStatement st) (i j : ℕ)
    (hij : i ≠ j) (s s' t t' : TFName) (k k' : VarKind)
    (ev ev' : List (Tensor K) → List (List K) → Except PyErr (List (List K))) :
    let p := TFProgram.run unique ⟨N, []⟩ stmts
    p.objs[i]? = some (.leaf s t k ev) → p.objs[j]? = some (.leaf s' t' k' ev') →
    ∀ v ∈ (ScopedFn.leaf s t k ev).parameters p.graph, v ∉ (ScopedFn.leaf s' t' k' ev').parameters p.graph := by
  intro p hi hj v hv hv'
  have h := run_inv hu hN stmts hs
  have hne : s ≠ s' := by
    intro e
    have hnd := h.objs.nodup
    apply hij
    have h1 : (p.objs.map ScopedFn.scope)[i]? = some s := by rw [List.getElem?_map, hi]; rfl
    have h2 : (p.objs.map ScopedFn.scope)[j]? = some s := by rw [List.getElem?_map, hj, e]; rfl
    have hlt : i < (p.objs.map ScopedFn.scope).length := (List.getElem?_eq_some_iff.mp h1).1
    exact (List.getElem?_inj hlt hnd).mp (h1.trans h2.symm)
  have hv1 := List.mem_filter.mp hv
  have hv2 := List.mem_filter.mp hv'
  have m1 := List.mem_of_getElem? hi
  have m2 := List.mem_of_getElem? hj
  have hs1 : IsScope N s := h.objs.scopes _ m1
  have hs2 : IsScope N s' := h.objs.scopes _ m2
  have hd2 : ∀ c ∈ s', c ≠ '.' := by
    obtain ⟨w, hw, e⟩ := hs2
    intro c hc
    rw [e] at hc
    simp only [List.mem_append, List.mem_singleton] at hc
    rcases hc with (hc | hc) | hc
    · exact hN c hc
    · exact (hw c hc).2
    · rw [hc]; decide
  obtain ⟨r, hr⟩ := matchScope_plain hd2 hv2.2
  rw [hr] at hv1
  exact hne (isScope_match hN hs1 hs2 hv1.2)

/-! ### Examples and refutations -/

/-- Unique names with suffixes `_1`, `_11`, ...: as many ones as the longest name in use has characters are enough. -/
def exampleUnique (used : List TFName) (n : TFName) : TFName :=
  if n ∈ used then n ++ '_' :: List.replicate ((used.map List.length).sum + 1) '1' else n

theorem exampleUnique_contract : Spec.UniqueContract exampleUnique where
  fresh used n := by
    unfold exampleUnique
    split_ifs with h
    · intro hm
      have h1 : ∀ (l : List TFName) (x : TFName), x ∈ l → x.length ≤ (l.map List.length).sum := by
        intro l
        induction l with
        | nil => simp
        | cons a l ih =>
          intro x hx
          simp only [List.map_cons, List.sum_cons]
          rcases List.mem_cons.mp hx with rfl | hx
          · omega
          · have := ih x hx; omega
      have := h1 used _ hm
      simp only [List.length_append, List.length_cons, List.length_replicate] at this
      omega
    · exact h
  suffix used n := by
    unfold exampleUnique
    split_ifs with h
    · refine ⟨_, ?_, rfl⟩
      intro c hc
      rcases List.mem_cons.mp hc with rfl | hc
      · decide
      · rw [List.eq_of_mem_replicate hc]; decide
    · exact ⟨[], by simp [Spec.PlainName], by simp⟩

/-- A network with one weight `w` that multiplies its input. -/
def gainEval (ws : List (Tensor ℚ)) (pts : List (List ℚ)) : Except PyErr (List (List ℚ)) :=
  match ws with
  | [w] => .ok (pts.map fun r => r.map fun x => (w.data.getD 0 0) * x)
  | _ => .error .valueError

/-- `NeuralNetwork(name='n')` with one weight. -/
def networkStmt (name : TFName) : TFStatement ℚ := .function name (.evaluation [['w']]) gainEval

/-- `Triangulation(name='n')` with its vertex values. -/
def tableStmt (name : TFName) : TFStatement ℚ := .function name (.constructor [['v']]) gainEval

/-- Two networks and a table with the same name, a sum of a network and a saturated table, which is called twice. -/
def exampleProgram : List (TFStatement ℚ) :=
  [networkStmt ['n'], networkStmt ['n'], tableStmt ['n'], .saturate ['s'] 2 [-1] [1], .add ['f'] 1 3]

/-- C89: the parameters of the sum are the weight of the second network and the vertex values, also after more calls. -/
example : ∃ f, (TFProgram.run exampleUnique ⟨['p', '/'], []⟩ (exampleProgram ++ [.call 4] ++ [.call 0, .call 4])).objs[4]? = some f ∧
    f.parameters (TFProgram.run exampleUnique ⟨['p', '/'], []⟩
      (exampleProgram ++ [.call 4] ++ [.call 0, .call 4])).graph = Spec.uses f ∧ (Spec.uses f).length = 2 := by
  have hi : ∃ f, (TFProgram.run exampleUnique ⟨['p', '/'], []⟩ exampleProgram).objs[4]? = some f ∧
      (Spec.uses f).length = 2 ∧ Spec.NoSaturatedNetwork f := ⟨_, rfl, rfl, ⟨trivial, id, trivial⟩⟩
  obtain ⟨f, h1, h2, h3⟩ := hi
  obtain ⟨a, b⟩ := C89_parameters_partial exampleUnique exampleUnique_contract ['p', '/'] (by decide) exampleProgram
    [.call 0, .call 4] (by
      simp only [exampleProgram, networkStmt, tableStmt, List.mem_cons, List.not_mem_nil, or_false]
      rintro st (rfl | rfl | rfl | rfl | rfl) <;> simp [Spec.PlainStatement, Spec.PlainName])
    (by
      simp only [List.mem_cons, List.not_mem_nil, or_false]
      rintro st (rfl | rfl) <;> trivial) 4 f h1 h3
  exact ⟨f, a, b, h2⟩

/-- C89: the two networks have different parameters. -/
example : ∃ s t s' t', (TFProgram.run exampleUnique ⟨[], []⟩ (exampleProgram ++ [.call 0, .call 1])).objs[0]? =
      some (.leaf s t (.evaluation [['w']]) gainEval) ∧
    (TFProgram.run exampleUnique ⟨[], []⟩ (exampleProgram ++ [.call 0, .call 1])).objs[1]? =
      some (.leaf s' t' (.evaluation [['w']]) gainEval) ∧ s = ['n', '/'] ∧ s' ≠ s :=
  ⟨_, _, _, _, rfl, rfl, rfl, by decide⟩

/-- The parameters of the object with index `i` after a program. -/
def parametersAfter (o : OpenScopes) (stmts : List (TFStatement ℚ)) (i : ℕ) : Option (List TFName) :=
  let p := TFProgram.run exampleUnique o stmts
  p.objs[i]?.map fun f => f.parameters p.graph

/-- The variables that the value of the object with index `i` depends on. -/
def usesAfter (o : OpenScopes) (stmts : List (TFStatement ℚ)) (i : ℕ) : Option (List TFName) :=
  (TFProgram.run exampleUnique o stmts).objs[i]?.map Spec.uses

/-- **C89 refuted (dots).** `NeuralNetwork(name='a.b')` lists the parameters of `NeuralNetwork(name='axb')` as its own, since the scope is used as a regular expression. -/
theorem C89_refuted_dot :
    let prog := [networkStmt ['a', '.', 'b'], networkStmt ['a', 'x', 'b'], .call 0, .call 1]
    usesAfter ⟨[], []⟩ prog 0 = some [['a', '.', 'b', '/', '/', 'w']] ∧
    usesAfter ⟨[], []⟩ prog 1 = some [['a', 'x', 'b', '/', '/', 'w']] ∧
    parametersAfter ⟨[], []⟩ prog 0 = some [['a', '.', 'b', '/', '/', 'w'], ['a', 'x', 'b', '/', '/', 'w']] := by
  decide +kernel

/-- **C89 refuted (slashes).** `NeuralNetwork(name='a')` lists the parameters of `NeuralNetwork(name='a/b')` as its own. -/
theorem C89_refuted_slash :
    let prog := [networkStmt ['a'], networkStmt ['a', '/', 'b'], .call 0, .call 1]
    usesAfter ⟨[], []⟩ prog 0 = some [['a', '/', '/', 'w']] ∧
    parametersAfter ⟨[], []⟩ prog 0 = some [['a', '/', '/', 'w'], ['a', '/', 'b', '/', '/', 'w']] := by
  decide +kernel

/-- **C89 refuted (variable scopes).** A network that is made inside `tf.variable_scope('p')` depends on its weight but has no parameters: the name of the weight contains the scope twice. -/
theorem C89_refuted_variable_scope :
    let prog := [networkStmt ['n'], .call 0]
    usesAfter ⟨['p', '/'], ['p']⟩ prog 0 = some [['p', '/', 'p', '/', 'n', '/', '/', 'w']] ∧
    parametersAfter ⟨['p', '/'], ['p']⟩ prog 0 = some [] := by
  decide +kernel

/-! ## C90 -/

/-- **C90 (partial).** The saturation of a function that makes its variables in the constructor, or of a saturation of one, is the saturated value of that function for all values of
the variables, and has the same parameters. Missing: networks (`C90_refuted`). -/
theorem C90_saturation_partial [Field K] [LinearOrder K] (unique : List TFName → TFName → TFName)
    (hu : Spec.UniqueContract unique) (N : TFName) (hN : ∀ c ∈ N, c ≠ '.') (stmts : List (TFStatement K))
    (hs : ∀ st ∈ stmts, Spec.PlainStatement st) (s t : TFName) (f : ScopedFn K) (lower upper : List K)
    (hf : .saturation s t f lower upper ∈ (TFProgram.run unique ⟨N, []⟩ stmts).objs) (hw : ¬ Spec.WrapsNetwork f)
    (st : TFName → Tensor K) (pts : List (List K)) :
    let p := TFProgram.run unique ⟨N, []⟩ stmts
    (ScopedFn.saturation s t f lower upper).parameters p.graph = f.parameters p.graph ∧
    f.parameters p.graph = Spec.uses f ∧
    (∀ m, f.evaluate st pts = .ok (.rows m) → (ScopedFn.saturation s t f lower upper).evaluate st pts =
      (m.mapM (saturateRow lower upper)).map .rows) ∧
    (∀ e, f.evaluate st pts = .error e →
      (ScopedFn.saturation s t f lower upper).evaluate st pts = .error e) := by
  intro p
  have h := run_inv hu hN stmts hs
  have hp := h.objs.parts _ hf
  have hev : ∀ (g : ScopedFn K), g ∈ p.objs → g.hasDims = true → ¬ Spec.WrapsNetwork g → ∀ t t' : TFName,
      g.evaluateIn st t pts = g.evaluateIn st t' pts := by
    intro g
    induction g with
    | leaf s t kind ev =>
      intro _ _ hw t t'
      cases kind with
      | constructor vs => rfl
      | evaluation vs => exact absurd trivial hw
    | added s t f g _ _ => intro _ hd; cases hd
    | saturation s t f lo up ih =>
      intro hg _ hw t t'
      have hp := h.objs.parts _ hg
      simp only [ScopedFn.evaluateIn]
      rw [ih hp.1 hp.2 hw t t']
  have e : (ScopedFn.saturation s t f lower upper).evaluate st pts = (do
      match ← f.evaluate st pts with
      | .rows m =>
        let r ← m.mapM (saturateRow lower upper)
        return .rows r
      | _ => .error .valueError) := by
    unfold ScopedFn.evaluate
    rw [hev f hp.1 hp.2 hw f.template t]
    rfl
  refine ⟨?_, ?_, ?_, ?_⟩
  · cases f with
    | added _ _ _ _ => cases hp.2
    | leaf _ _ _ _ => rfl
    | saturation _ _ _ _ _ => rfl
  · obtain ⟨c, hc, h1, h2, h3⟩ := wrapped_constructor h.objs f hp.1 hp.2 hw f.template
    have : f.parameters p.graph = inScope p.graph f.scopeName := by
      cases f with
      | added _ _ _ _ => cases hp.2
      | leaf _ _ _ _ => rfl
      | saturation _ _ _ _ _ => rfl
    rw [this, h2]
    unfold Spec.uses
    rw [h3]
    exact h.vars.constructed c hc h1
  · intro m hm
    rw [e, hm]
    show (m.mapM (saturateRow lower upper) >>= fun r => pure (FnValue.rows r)) = _
    cases List.mapM (saturateRow lower upper) m <;> rfl
  · intro er hm
    rw [e, hm]
    rfl

/-- **C90 (saturated networks).** In every program, the value of a saturated network does not depend on its `parameters` at all: it has its own weights. -/
theorem C90_parameters_without_effect [Field K] [LinearOrder K] (unique : List TFName → TFName → TFName)
    (hu : Spec.UniqueContract unique) (N : TFName) (hN : ∀ c ∈ N, c ≠ '.') (stmts : List (TFStatement K))
    (hs : ∀ st ∈ stmts, Spec.PlainStatement st) (s t : TFName) (f : ScopedFn K) (lower upper : List K)
    (hf : .saturation s t f lower upper ∈ (TFProgram.run unique ⟨N, []⟩ stmts).objs) (hw : Spec.WrapsNetwork f)
    (st st' : TFName → Tensor K) (pts : List (List K)) :
    let p := TFProgram.run unique ⟨N, []⟩ stmts
    (∀ v, v ∉ (ScopedFn.saturation s t f lower upper).parameters p.graph → st v = st' v) →
    (ScopedFn.saturation s t f lower upper).evaluate st pts = (ScopedFn.saturation s t f lower upper).evaluate st' pts := by
  intro p hst
  have h := run_inv hu hN stmts hs
  have hp := h.objs.parts _ hf
  apply evaluate_uses
  intro v hv
  apply hst
  intro hv'
  -- the variables are in the scope of the saturation
  obtain ⟨e, he⟩ := h.objs.templates _ hf
  have he' : t = s ++ e := he
  have huse : ∀ (g : ScopedFn K), Spec.WrapsNetwork g → ∀ v ∈ Spec.usesIn g t, ∃ r, v = s ++ r := by
    intro g
    induction g with
    | leaf s' t' kind ev =>
      intro hw v hv
      cases kind with
      | constructor vs => exact absurd hw id
      | evaluation vs =>
        obtain ⟨w, -, rfl⟩ := List.mem_map.mp hv
        exact ⟨e ++ ['/'] ++ w, by rw [he']; simp⟩
    | added s' t' f g _ _ => intro hw; exact absurd hw id
    | saturation s' t' f lo up ih => exact ih
  obtain ⟨r, hr⟩ := huse f hw v hv
  -- the parameters are those in the scope of a wrapped function
  have hname : ∀ (g : ScopedFn K), g ∈ p.objs → g.hasDims = true → ∃ c ∈ p.objs, g.scopeName = c.scope ∧
      (∃ a b k d, c = .leaf a b k d) := by
    intro g
    induction g with
    | leaf s' t' kind ev => intro hg _; exact ⟨_, hg, rfl, _, _, _, _, rfl⟩
    | added s' t' f g _ _ => intro _ hd; cases hd
    | saturation s' t' f lo up ih =>
      intro hg _
      have hp := h.objs.parts _ hg
      exact ih hp.1 hp.2
  obtain ⟨c, hc, h1, a, b, k, d, h2⟩ := hname f hp.1 hp.2
  have hm : matchScope f.scopeName v = true := (List.mem_filter.mp hv').2
  rw [hr, h1] at hm
  have := isScope_match hN (h.objs.scopes c hc) (h.objs.scopes _ hf) hm
  have := h.objs.eq_of_scope hc hf this
  rw [h2] at this
  cases this

/-- A network and its saturation. -/
def saturatedNetwork : List (TFStatement ℚ) := [networkStmt ['n'], .saturate ['s'] 0 [-1] [1], .call 0, .call 1]

/-- The weight of the network is one half, all other variables are zero. -/
def trainedStore (v : TFName) : Tensor ℚ := if v = ['n', '/', '/', 'w'] then ⟨[1, 1], [1/2]⟩ else ⟨[1, 1], [0]⟩

/-- The value of the object with index `i` for a store. -/
def valueAfter (stmts : List (TFStatement ℚ)) (i : ℕ) (st : TFName → Tensor ℚ) (pts : List (List ℚ)) :
    Option (Except PyErr (FnValue ℚ)) :=
  (TFProgram.run exampleUnique ⟨[], []⟩ stmts).objs[i]?.map fun f => f.evaluate st pts

/-- **C90 refuted.** A network and its saturation have different weights: where the network has a value within the bounds, the saturation has another value. The parameters of the saturation are the
weights of the network. -/
theorem C90_refuted :
    valueAfter saturatedNetwork 0 trainedStore [[1]] = some (.ok (.rows [[1/2]])) ∧
    valueAfter saturatedNetwork 1 trainedStore [[1]] = some (.ok (.rows [[0]])) ∧
    parametersAfter ⟨[], []⟩ saturatedNetwork 1 = some [['n', '/', '/', 'w']] ∧
    usesAfter ⟨[], []⟩ saturatedNetwork 1 = some [['s', '/', '/', 'w']] := by
  decide +kernel

/-- **C51 refuted for networks.** There are a program, values of the variables and a point such that the function wrapped by a saturation has a value within the bounds, and the saturation
has another value at that point. -/
theorem C51_network_refuted : ∃ (stmts : List (TFStatement ℚ)) (st : TFName → Tensor ℚ) (i j : ℕ) (s t : TFName) (f : ScopedFn ℚ)
    (lower upper x v w : ℚ), (TFProgram.run exampleUnique ⟨[], []⟩ stmts).objs[i]? = some f ∧
    (TFProgram.run exampleUnique ⟨[], []⟩ stmts).objs[j]? = some (.saturation s t f [lower] [upper]) ∧
    valueAfter stmts i st [[x]] = some (.ok (.rows [[v]])) ∧ lower ≤ v ∧ v ≤ upper ∧
    valueAfter stmts j st [[x]] = some (.ok (.rows [[w]])) ∧ w ≠ v :=
  ⟨saturatedNetwork, trainedStore, 0, 1, _, _, _, -1, 1, 1, 1/2, 0, rfl, rfl, C90_refuted.1, by norm_num, by norm_num,
    C90_refuted.2.1, by norm_num⟩

/-- C90: a saturated table has the saturated value of the table. -/
example : let prog := [tableStmt ['n'], .saturate ['s'] 0 [-1] [1]]
    valueAfter prog 1 (fun _ => ⟨[1], [2]⟩) [[1/4], [3]] = some (.ok (.rows [[1/2], [1]])) ∧
    parametersAfter ⟨[], []⟩ prog 1 = some [['n', '/', 'v']] := by decide +kernel

/-- The hypotheses of the theorems on C90 hold in such programs. -/
example : ∃ s t f lo up, .saturation s t f lo up ∈ (TFProgram.run exampleUnique ⟨[], []⟩ saturatedNetwork).objs ∧
    Spec.WrapsNetwork f := ⟨_, _, _, _, _, List.mem_cons_of_mem _ List.mem_cons_self, trivial⟩

end SafeLearning

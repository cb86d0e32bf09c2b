import Verif.FactoriesSpec

/-!
Lemmas about the factories for C83.
-/

namespace Verif.Factories

/-- A call that gives an object with property `P`, or throws because there is none. -/
def Either {α : Type} (r : Res α) (P : α → Prop) : Prop := (∃ a, r = .ok a ∧ P a) ∨ (r = .error .thrown ∧ ∀ a, ¬ P a)

theorem forEach_name {α : Type} (g : Eqn → Option α → Res (Option α)) (e : Eqn) :
    forEachEquation (fun e' ptr => if e'.name = e.name then g e' ptr else .ok ptr) = g e none := by
  have h : ∀ x : Res (Option α), (x >>= fun p => .ok p) = x := by intro x; cases x <;> rfl
  cases e <;> simp [forEachEquation, equationList, Eqn.name, h]

theorem forEach_unknown {α : Type} (g : Eqn → Option α → Res (Option α)) (s : String) (hs : ∀ e : Eqn, e.name ≠ s) :
    forEachEquation (fun e' ptr => if e'.name = s then g e' ptr else .ok ptr) = .ok none := by
  simp [forEachEquation, equationList, hs]

theorem name_injective {e e' : Eqn} (h : e.name = e'.name) : e = e' := by
  cases e <;> cases e' <;> first | rfl | (simp [Eqn.name] at h)

/-- One functor over a list of classes with different names: the object of the first (and only) class with the name. -/
theorem fluxes_find {cuda : Bool} {platform fluxName : String} {dimension : Nat} {r : ReconObj} {e : Eqn} : ∀ (l : List FluxClass) (ptr : Option FluxObj),
    (l.map FluxClass.name).Nodup →
    l.foldlM (fluxFunctor cuda platform fluxName dimension r e) ptr =
      match l.find? fun f => decide (f.name = toLower fluxName) with
      | some f => fluxFunctor cuda platform fluxName dimension r e none f
      | none => .ok ptr
  | [], ptr, _ => rfl
  | f :: l, ptr, h => by
    rw [List.map_cons, List.nodup_cons] at h
    by_cases hf : f.name = toLower fluxName
    · have hl : l.find? (fun f => decide (f.name = toLower fluxName)) = none := by
        rw [List.find?_eq_none]
        intro x hx hxe
        exact h.1 (List.mem_map.2 ⟨x, hx, by rw [hf]; simpa using hxe⟩)
      rw [List.foldlM_cons, List.find?_cons_of_pos (by simpa using hf)]
      have e1 : fluxFunctor cuda platform fluxName dimension r e ptr f = fluxFunctor cuda platform fluxName dimension r e none f := by simp [fluxFunctor, hf]
      rw [e1]
      cases hx : fluxFunctor cuda platform fluxName dimension r e none f with
      | error x => simp only [hx]; rfl
      | ok p =>
        rw [Res.ok_bind, fluxes_find l p h.2, hl]
        simp only [hx]
    · rw [List.foldlM_cons, List.find?_cons_of_neg (by simpa using hf)]
      have e1 : fluxFunctor cuda platform fluxName dimension r e ptr f = .ok ptr := by simp [fluxFunctor, hf]
      rw [e1, Res.ok_bind, fluxes_find l ptr h.2]

theorem fluxList_nodup (e : Eqn) : ((fluxList e).map FluxClass.name).Nodup := by cases e <;> decide

theorem activeDimension_cases (d : I3) : Cartesian.activeDimension d = 1 ∨ Cartesian.activeDimension d = 2 ∨ Cartesian.activeDimension d = 3 := by
  unfold Cartesian.activeDimension; split_ifs <;> simp

theorem withDimension_eq (p : Platform) (f : FluxClass) (e : Eqn) (r : ReconObj) (d : I3) :
    withDimension p f e r (Cartesian.activeDimension d) = .ok (some ⟨p, f, e, Cartesian.activeDimension d, r⟩) := by
  rcases activeDimension_cases d with h | h | h <;> simp [withDimension, h]


theorem table_iff (e : Eqn) (x : String) (f : FluxClass) : (e.name, x, f) ∈ fluxTable ↔ f ∈ fluxList e ∧ f.name = x := by
  have h : ∀ a b : String, a = b ↔ b = a := fun _ _ => eq_comm
  rcases f with t | t | t <;> cases t <;> cases e <;> simp [fluxTable, fluxList, Eqn.name, FluxClass.name] <;> exact eq_comm


theorem recon_cpu (name : String) (e : Eqn) :
    (∃ s v, reconstructionCPU name e.name = .ok ⟨.cpu, s, v⟩ ∧ (name, s) ∈ reconTable .cpu e.name ∧ ∀ x ∈ v, x.conserved = e.conserved) ∨
    (reconstructionCPU name e.name = .error .thrown ∧ ∀ s, (name, s) ∉ reconTable .cpu e.name) := by
  by_cases h : name ∈ ["none", "eno2", "eno3", "eno4", "weno2", "weno3", "wenof2", "mc", "mm"]
  · simp only [List.mem_cons, List.not_mem_nil, or_false] at h
    rcases h with rfl | rfl | rfl | rfl | rfl | rfl | rfl | rfl | rfl <;> cases e <;>
      simp [reconstructionCPU, eulerOr, reconTable, Eqn.name, Eqn.conserved]
  · simp only [List.mem_cons, List.not_mem_nil, or_false, not_or] at h
    obtain ⟨h1, h2, h3, h4, h5, h6, h7, h8, h9⟩ := h
    right
    constructor
    · simp only [reconstructionCPU, h1, h2, h3, h4, h5, h6, h7, h8, h9, if_false]
    · intro s
      cases e <;> simp [reconTable, Eqn.name, h1, h2, h3, h4, h5, h6, h7, h8, h9]

theorem recon_cuda (name : String) (e : Eqn) :
    (∃ s v, reconstructionCUDA name e.name = .ok ⟨.cuda, s, v⟩ ∧ (name, s) ∈ reconTable .cuda e.name ∧ ∀ x ∈ v, x.conserved = e.conserved) ∨
    (reconstructionCUDA name e.name = .error .thrown ∧ ∀ s, (name, s) ∉ reconTable .cuda e.name) := by
  by_cases h : name ∈ ["none", "eno2", "eno3", "eno4", "weno2", "weno3", "wenof2", "mc", "mm"]
  · simp only [List.mem_cons, List.not_mem_nil, or_false] at h
    rcases h with rfl | rfl | rfl | rfl | rfl | rfl | rfl | rfl | rfl <;> cases e <;>
      simp [reconstructionCUDA, eulerOr, eulerBurgers, reconTable, Eqn.name, Eqn.conserved]
  · simp only [List.mem_cons, List.not_mem_nil, or_false, not_or] at h
    obtain ⟨h1, h2, h3, h4, h5, h6, h7, h8, h9⟩ := h
    right
    constructor
    · simp only [reconstructionCUDA, h1, h2, h3, h4, h5, h6, h7, h8, h9, if_false]
    · intro s
      cases e <;> simp [reconTable, Eqn.name, h1, h2, h3, h4, h5, h7, h8, h9]

theorem integrator_either (name : String) : Either (createIntegrator name) fun k => (name, k) ∈ integratorTable := by
  by_cases h : name ∈ ["forwardeuler", "rungekutta2", "rungekutta3", "rungekutta4"]
  · simp only [List.mem_cons, List.not_mem_nil, or_false] at h
    left
    rcases h with rfl | rfl | rfl | rfl <;> exact ⟨_, by simp [createIntegrator]; rfl, by simp [integratorTable]⟩
  · simp only [List.mem_cons, List.not_mem_nil, or_false, not_or] at h
    obtain ⟨h1, h2, h3, h4⟩ := h
    right
    constructor
    · simp only [createIntegrator, h1, h2, h3, h4, if_false]
    · intro s; simp [integratorTable, h1, h2, h3, h4]

theorem boundaryOf_either (p : Platform) (name : String) (g : Nat) :
    Either (boundaryOf p name g) fun b => (name, b.condition) ∈ boundaryTable ∧ b.platform = p ∧ b.ghost = g := by
  by_cases h : name ∈ ["neumann", "periodic"]
  · simp only [List.mem_cons, List.not_mem_nil, or_false] at h
    left
    rcases h with rfl | rfl <;> exact ⟨_, by simp [boundaryOf]; rfl, by simp [boundaryTable]⟩
  · simp only [List.mem_cons, List.not_mem_nil, or_false, not_or] at h
    obtain ⟨h1, h2⟩ := h
    right
    constructor
    · simp only [boundaryOf, h1, h2, if_false]
    · intro s; simp [boundaryTable, h1, h2]

theorem createBoundary_eq {cuda : Bool} {platform : String} {p : Platform} (hp : PlatformMeant cuda platform p) (name : String) (g : Nat) :
    createBoundary cuda platform name g = boundaryOf p name g := by
  rcases hp with ⟨rfl, rfl⟩ | ⟨rfl, rfl, rfl⟩ <;> simp [createBoundary]

theorem tecno_cases (p : Platform) (name : String) :
    (∃ r, tecnoByName p name = some (p, r) ∧ (name, r) ∈ tecnoTable) ∨ (tecnoByName p name = none ∧ ∀ r, (name, r) ∉ tecnoTable) := by
  by_cases h : name ∈ ["none", "eno2", "eno3", "eno4"]
  · simp only [List.mem_cons, List.not_mem_nil, or_false] at h
    left
    rcases h with rfl | rfl | rfl | rfl <;> exact ⟨_, by simp [tecnoByName]; rfl, by simp [tecnoTable]⟩
  · simp only [List.mem_cons, List.not_mem_nil, or_false, not_or] at h
    obtain ⟨h1, h2, h3, h4⟩ := h
    right
    constructor
    · simp only [tecnoByName, h1, h2, h3, h4, if_false]
    · intro s; simp [tecnoTable, h1, h2, h3, h4]

theorem createTecno_eq {cuda : Bool} {platform : String} {p : Platform} (hp : PlatformMeant cuda platform p) (name : String) :
    createTecnoReconstruction cuda platform name = match tecnoByName p name with | some r => .ok r | none => .error .thrown := by
  rcases hp with ⟨rfl, rfl⟩ | ⟨rfl, rfl, rfl⟩ <;> simp [createTecnoReconstruction] <;> rfl

theorem diffusionOf_either (p : Platform) (e : Eqn) (type : String) (r : Platform × TecnoScheme) :
    Either (diffusionOf p e type r) fun d => ∃ m, (type, m) ∈ matrixTable ∧ d = .tecno p e m r := by
  by_cases h : type ∈ ["tecnoroe", "tecnorusanov"]
  · simp only [List.mem_cons, List.not_mem_nil, or_false] at h
    left
    rcases h with rfl | rfl
    · exact ⟨.tecno p e .roe r, by simp [diffusionOf], .roe, by simp [matrixTable], rfl⟩
    · exact ⟨.tecno p e .rusanov r, by simp [diffusionOf], .rusanov, by simp [matrixTable], rfl⟩
  · simp only [List.mem_cons, List.not_mem_nil, or_false, not_or] at h
    obtain ⟨h1, h2⟩ := h
    right
    constructor
    · simp only [diffusionOf, h1, h2, if_false]
    · rintro s ⟨m, hm, -⟩; simp [matrixTable, h1, h2] at hm

theorem diffusion_either {cuda : Bool} {c : Conf} {p : Platform} {e : Eqn} (hp : PlatformMeant cuda c.platform p) (he : e.name = c.equation) :
    Either (createDiffusionOperator cuda c.platform c.equation c.diffusion c.diffusionReconstruction) (DiffusionMeant p e c) := by
  unfold createDiffusionOperator
  rw [createTecno_eq hp]
  rcases tecno_cases p c.diffusionReconstruction with ⟨r, hr, ht⟩ | ⟨hr, ht⟩
  · rw [hr]
    by_cases hn : c.diffusion = "none"
    · refine .inl ⟨.none, ?_, .inl ⟨hn, ⟨r, ht⟩, rfl⟩⟩
      simp only [Res.ok_bind, if_pos hn]
    · have hd : (Except.ok (p, r) >>= fun r => if c.diffusion = "none" then Except.ok DiffObj.none else if c.platform = "cpu" then diffusionFor .cpu c.equation c.diffusion r
          else if cuda = true ∧ c.platform = "cuda" then diffusionFor .cuda c.equation c.diffusion r else Except.error Err.thrown : Res DiffObj) =
          diffusionFor p c.equation c.diffusion (p, r) := by
        rw [Res.ok_bind, if_neg hn]
        rcases hp with ⟨h1, rfl⟩ | ⟨rfl, h1, rfl⟩
        · rw [if_pos h1]
        · rw [if_neg (by rw [h1]; decide), if_pos ⟨rfl, h1⟩]
      show Either (Except.ok (p, r) >>= _) _
      rw [hd]
      have huniq : ∀ r', (c.diffusionReconstruction, r') ∈ tecnoTable → r' = r := by
        intro r' h'
        simp only [tecnoTable, List.mem_cons, List.not_mem_nil, or_false, Prod.mk.injEq] at h' ht
        rcases h' with ⟨h', rfl⟩ | ⟨h', rfl⟩ | ⟨h', rfl⟩ | ⟨h', rfl⟩ <;> rcases ht with ⟨h'', rfl⟩ | ⟨h'', rfl⟩ | ⟨h'', rfl⟩ | ⟨h'', rfl⟩ <;>
          first | rfl | (rw [h'] at h''; exact absurd h'' (by decide))
      by_cases hE : c.equation ∈ ["euler1", "euler2", "euler3", "burgers"]
      · have hf : diffusionFor p c.equation c.diffusion (p, r) = diffusionOf p e c.diffusion (p, r) := by
          rw [← he] at hE ⊢
          cases e <;> simp [Eqn.name] at hE ⊢ <;> simp [diffusionFor]
        rw [hf]
        rcases diffusionOf_either p e c.diffusion (p, r) with ⟨d, hd, m, hm, rfl⟩ | ⟨hd, hm⟩
        · exact .inl ⟨_, hd, .inr ⟨hE, m, r, hm, ht, rfl⟩⟩
        · refine .inr ⟨hd, ?_⟩
          rintro d (⟨h, -⟩ | ⟨-, m, r', h1, h2, rfl⟩)
          · exact hn h
          · exact hm (.tecno p e m (p, r)) ⟨m, h1, rfl⟩
      · refine .inr ⟨?_, ?_⟩
        · simp only [List.mem_cons, List.not_mem_nil, or_false, not_or] at hE
          simp only [diffusionFor, hE, if_false]
        · rintro d (⟨h, -⟩ | ⟨h, -⟩)
          · exact hn h
          · exact hE h
  · rw [hr]
    refine .inr ⟨rfl, ?_⟩
    rintro d (⟨-, ⟨r, h⟩, -⟩ | ⟨-, m, r, -, h, -⟩) <;> exact ht r h

theorem recon_either {cuda : Bool} {platform : String} {p : Platform} (hp : PlatformMeant cuda platform p) (name : String) (e : Eqn) :
    (∃ s v, createReconstruction cuda platform name e.name = .ok ⟨p, s, v⟩ ∧ (name, s) ∈ reconTable p e.name ∧ ∀ x ∈ v, x.conserved = e.conserved) ∨
    (createReconstruction cuda platform name e.name = .error .thrown ∧ ∀ s, (name, s) ∉ reconTable p e.name) := by
  have hk : ¬ (e.name ≠ "euler1" ∧ e.name ≠ "euler2" ∧ e.name ≠ "euler3" ∧ e.name ≠ "burgers" ∧ e.name ≠ "buckleyleverett" ∧ e.name ≠ "cubic" ∧ e.name ≠ "linear") := by
    cases e <;> simp [Eqn.name]
  unfold createReconstruction
  rw [if_neg hk]
  rcases hp with ⟨rfl, rfl⟩ | ⟨rfl, rfl, rfl⟩
  · rw [if_pos rfl]; exact recon_cpu name e
  · rw [if_neg (by decide), if_pos ⟨rfl, rfl⟩]; exact recon_cuda name e

theorem directions_eq (d : I3) : Cartesian.activeDimension d = directionsOf d := by unfold Cartesian.activeDimension directionsOf; rfl

theorem conserved_eq (e : Eqn) : e.conserved = variablesOf e := by cases e <;> rfl

theorem flux_either {cuda : Bool} {c : Conf} {p : Platform} {e : Eqn} (hp : PlatformMeant cuda c.platform p) (he : e.name = c.equation) :
    Either (createNumericalFlux cuda c.platform c.equation c.flux c.reconstruction c.dims) fun f =>
      ((c.equation, toLower c.flux, f.flux) ∈ fluxTable ∧ f.platform = p ∧ f.equation = e ∧ f.dimension = directionsOf c.dims) ∧
      ((c.reconstruction, f.recon.scheme) ∈ reconTable p c.equation ∧ f.recon.platform = p ∧ ∀ v ∈ f.recon.views, variablesOf v = variablesOf e) := by
  unfold createNumericalFlux
  rw [← he]
  rcases recon_either hp c.reconstruction e with ⟨s, v, hr, hs, hv⟩ | ⟨hr, hs⟩
  · rw [hr, Res.ok_bind, forEach_name, fluxes_find _ _ (fluxList_nodup e)]
    have hfun : ∀ f : FluxClass, f.name = toLower c.flux → fluxFunctor cuda c.platform c.flux (Cartesian.activeDimension c.dims) ⟨p, s, v⟩ e none f =
        .ok (some ⟨p, f, e, Cartesian.activeDimension c.dims, ⟨p, s, v⟩⟩) := by
      intro f hf
      unfold fluxFunctor
      rw [if_pos hf]
      rcases hp with ⟨h1, rfl⟩ | ⟨rfl, h1, rfl⟩
      · rw [if_pos h1, withDimension_eq]
      · rw [if_neg (by rw [h1]; decide), if_pos ⟨rfl, h1⟩, withDimension_eq]
    cases hfd : (fluxList e).find? fun f => decide (f.name = toLower c.flux) with
    | some f =>
      have hn : f.name = toLower c.flux := by simpa using List.find?_some hfd
      have hm := List.mem_of_find?_eq_some hfd
      refine .inl ⟨⟨p, f, e, Cartesian.activeDimension c.dims, ⟨p, s, v⟩⟩, ?_, ⟨(table_iff _ _ _).2 ⟨hm, hn⟩, rfl, rfl, directions_eq _⟩, hs, rfl, ?_⟩
      · simp only [hfun f hn, Res.ok_bind]
      · intro x hx; rw [← conserved_eq, ← conserved_eq]; exact hv x hx
    | none =>
      refine .inr ⟨rfl, ?_⟩
      rintro f ⟨⟨h, -⟩, -⟩
      obtain ⟨h1, h2⟩ := (table_iff _ _ _).1 h
      have := List.find?_eq_none.1 hfd _ h1
      simp [h2] at this
  · rw [hr]
    exact .inr ⟨rfl, fun f h => hs _ h.2.1⟩

theorem computer_eq {cuda : Bool} {platform : String} {p : Platform} (hp : PlatformMeant cuda platform p) (e : Eqn) : createComputer cuda platform e.name = .ok (p, e) := by
  unfold createComputer
  rw [forEach_name (fun e ptr => if platform = "cpu" then .ok (some (Platform.cpu, e)) else if cuda = true ∧ platform = "cuda" then .ok (some (.cuda, e)) else .error .thrown)]
  rcases hp with ⟨rfl, rfl⟩ | ⟨rfl, rfl, rfl⟩ <;> simp

theorem parameters_eq (e : Eqn) : createEquationParameters e.name = .ok e := by
  unfold createEquationParameters
  rw [forEach_name (fun e ptr => .ok (some e))]
  rfl

theorem parameters_unknown (s : String) (hs : ∀ e : Eqn, e.name ≠ s) : createEquationParameters s = .error .thrown := by
  unfold createEquationParameters
  rw [forEach_unknown (fun e ptr => .ok (some e)) s hs]
  rfl

theorem volume_eq {cuda : Bool} {platform : String} {p : Platform} (hp : PlatformMeant cuda platform p) (e : Eqn) (dims : I3) (g : Nat) :
    createConservedVolume cuda platform e.name dims g = .ok ⟨p, variablesOf e, dims, g⟩ := by
  unfold createConservedVolume
  rw [forEach_name (fun e ptr => do
      let m ← createMemory cuda platform
      .ok (some (⟨m, e.conserved, dims, g⟩ : VolumeObj)))]
  rcases hp with ⟨rfl, rfl⟩ | ⟨rfl, rfl, rfl⟩ <;> simp [createMemory, conserved_eq]

theorem table_name {s : String} {e : Eqn} : (s, e) ∈ equationTable ↔ e.name = s := by
  cases e <;> simp [equationTable, Eqn.name] <;> exact eq_comm

theorem mapM_const {α β : Type} (x : β) : ∀ l : List α, (l.mapM fun _ => (.ok x : Res β)) = .ok (List.replicate l.length x)
  | [] => rfl
  | _ :: l => by rw [List.mapM_cons, mapM_const x l]; rfl

theorem substeps_eq (k : Integrator.Kind) : k.substeps = stagesOf k := by cases k <;> rfl

theorem ghost_eq (f : FluxObj) : f.ghost = ghostsOfFlux f.flux f.recon.scheme := by
  obtain ⟨p, f, e, d, ⟨p', s, v⟩⟩ := f
  cases f <;> cases s <;> rfl

theorem diff_ghost_eq (d : DiffObj) : d.ghost = ghostsOfDiffusion d := by
  rcases d with _ | ⟨p, e, m, ⟨p', r⟩⟩
  · rfl
  · cases r <;> rfl

theorem platform_unknown {cuda : Bool} {platform : String} (h : ∀ p, ¬ PlatformMeant cuda platform p) (name : String) :
    createTecnoReconstruction cuda platform name = .error .thrown := by
  have h1 : platform ≠ "cpu" := fun hx => h .cpu (.inl ⟨hx, rfl⟩)
  have h2 : ¬ (cuda = true ∧ platform = "cuda") := fun hx => h .cuda (.inr ⟨hx.1, hx.2, rfl⟩)
  unfold createTecnoReconstruction
  rw [if_neg h1, if_neg h2]
  rfl

theorem platform_unique {cuda : Bool} {platform : String} {p q : Platform} (hp : PlatformMeant cuda platform p) (hq : PlatformMeant cuda platform q) : p = q := by
  rcases hp with ⟨rfl, rfl⟩ | ⟨rfl, rfl, rfl⟩ <;> rcases hq with ⟨h, rfl⟩ | ⟨-, h, rfl⟩ <;> first | rfl | exact absurd h (by decide)

theorem assemble_either (cuda : Bool) (c : Conf) : Either (assemble cuda c) fun s => ∃ p e, Meant cuda c s p e := by
  unfold assemble
  by_cases hb : c.boundary = "periodic" ∨ c.boundary = "neumann"
  swap
  · refine .inr ⟨by rw [if_neg hb]; rfl, ?_⟩
    rintro s ⟨p, e, h⟩
    have := h.boundary.1
    simp only [boundaryTable, List.mem_cons, List.not_mem_nil, or_false, Prod.mk.injEq] at this
    exact hb (this.elim (fun h => .inr h.1) (fun h => .inl h.1))
  rw [if_pos hb, Res.ok_bind]
  by_cases hE : ∃ e : Eqn, e.name = c.equation
  swap
  · refine .inr ⟨by rw [parameters_unknown _ fun e he => hE ⟨e, he⟩]; rfl, ?_⟩
    rintro s ⟨p, e, h⟩
    exact hE ⟨e, table_name.1 h.equation⟩
  obtain ⟨e, he⟩ := hE
  have hpar : createEquationParameters c.equation = .ok e := by rw [← he]; exact parameters_eq e
  rw [hpar, Res.ok_bind]
  by_cases hP : ∃ p, PlatformMeant cuda c.platform p
  swap
  · refine .inr ⟨?_, ?_⟩
    · unfold createDiffusionOperator
      rw [platform_unknown fun p hp => hP ⟨p, hp⟩]; rfl
    · rintro s ⟨p, e, h⟩
      exact hP ⟨p, h.platform⟩
  obtain ⟨p, hp⟩ := hP
  have hpe : ∀ {s p' e'}, Meant cuda c s p' e' → p' = p ∧ e' = e := fun h =>
    ⟨platform_unique h.platform hp, name_injective ((table_name.1 h.equation).trans he.symm)⟩
  rcases diffusion_either hp he with ⟨d, hd, hdm⟩ | ⟨hd, hdm⟩
  swap
  · refine .inr ⟨by rw [hd]; rfl, ?_⟩
    rintro s ⟨p', e', h⟩
    obtain ⟨rfl, rfl⟩ := hpe h
    exact hdm _ h.diffusion
  rw [hd, Res.ok_bind]
  rcases flux_either hp he with ⟨f, hf, hfm⟩ | ⟨hf, hfm⟩
  swap
  · refine .inr ⟨by rw [hf]; rfl, ?_⟩
    rintro s ⟨p', e', h⟩
    obtain ⟨rfl, rfl⟩ := hpe h
    exact hfm _ ⟨h.flux, h.recon⟩
  rw [hf, Res.ok_bind]
  rcases integrator_either c.integrator with ⟨k, hk, hkm⟩ | ⟨hk, hkm⟩
  swap
  · refine .inr ⟨by rw [hk]; rfl, ?_⟩
    rintro s ⟨p', e', h⟩
    exact hkm _ h.integrator
  rw [hk, Res.ok_bind, createBoundary_eq hp]
  rcases boundaryOf_either p c.boundary (systemGhost f d) with ⟨b, hbo, hbm⟩ | ⟨hbo, hbm⟩
  swap
  · refine .inr ⟨by rw [hbo]; rfl, ?_⟩
    rintro s ⟨p', e', h⟩
    exact hbm ⟨p, s.boundary.condition, systemGhost f d⟩ ⟨h.boundary.1, rfl, rfl⟩
  rw [hbo, Res.ok_bind, ← he, computer_eq hp e, Res.ok_bind]
  simp only [volume_eq hp e, mapM_const, Res.ok_bind, List.length_range]
  refine .inl ⟨_, rfl, p, e, ?_⟩
  refine ⟨hp, table_name.2 he, rfl, hfm.1, hfm.2, hdm, hkm, ⟨hbm.1, hbm.2.1, ?_⟩, rfl, ?_⟩
  · show b.ghost = _
    rw [hbm.2.2, systemGhost, ghost_eq, diff_ghost_eq]
  · show List.replicate _ _ = List.replicate _ _
    rw [substeps_eq, hbm.2.2]

/-- A table whose keys differ has one entry for a key. -/
theorem key_unique {α β : Type} {l : List (α × β)} (h : (l.map Prod.fst).Nodup) {a : α} {b b' : β} (hb : (a, b) ∈ l) (hb' : (a, b') ∈ l) : b = b' := by
  have := List.inj_on_of_nodup_map h hb hb' rfl
  exact (Prod.mk.inj this).2

theorem flux_unique {x y : String} {f f' : FluxClass} (h : (x, y, f) ∈ fluxTable) (h' : (x, y, f') ∈ fluxTable) : f = f' := by
  have hn : (fluxTable.map fun t => (t.1, t.2.1)).Nodup := by decide
  have := List.inj_on_of_nodup_map hn h h' rfl
  simpa using this

theorem recon_unique {p : Platform} {x y : String} {s s' : Scheme} (h : (x, s) ∈ reconTable p y) (h' : (x, s') ∈ reconTable p y) : s = s' := by
  refine key_unique ?_ h h'
  unfold reconTable
  cases p
  · simp only
    split_ifs <;> decide
  · simp only
    split_ifs <;> decide

theorem diffusion_unique {p : Platform} {e : Eqn} {c : Conf} {d d' : DiffObj} (h : DiffusionMeant p e c d) (h' : DiffusionMeant p e c d') : d = d' := by
  have hno : ∀ m, ("none", m) ∉ matrixTable := by intro m; simp [matrixTable]
  rcases h with ⟨h1, -, rfl⟩ | ⟨-, m, r, h2, h3, rfl⟩ <;> rcases h' with ⟨h1', -, rfl⟩ | ⟨-, m', r', h2', h3', rfl⟩
  · rfl
  · rw [h1] at h2'; exact absurd h2' (hno _)
  · rw [h1'] at h2; exact absurd h2 (hno _)
  · rw [key_unique (l := matrixTable) (by decide) h2 h2', key_unique (l := tecnoTable) (by decide) h3 h3']

end Verif.Factories

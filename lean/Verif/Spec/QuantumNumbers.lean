import Verif.Spec.Amplitude

/-! Specification for C113: what the intensity depends on. -/
namespace Verif.Spec
open Verif Verif.ThreeBody

/-- The chains agree in the spins, the IDs of the states, the LS couplings and the order of resonance and spectator. Names,
LaTeX, parities, masses and widths may be different. -/
structure SameQuantumNumbers (c c' : Chain) : Prop where
  resonance : c'.resonance.toP.spin = c.resonance.toP.spin
  parent : c'.parent.spin = c.parent.spin
  spectator : c'.spectator.index = c.spectator.index ∧ c'.spectator.spin = c.spectator.spin
  product1 : c'.product1.index = c.product1.index ∧ c'.product1.spin = c.product1.spin
  product2 : c'.product2.index = c.product2.index ∧ c'.product2.spin = c.product2.spin
  couplings : c'.incomingLs = c.incomingLs ∧ c'.outgoingLs = c.outgoingLs
  order : ResonanceFirst c' ↔ ResonanceFirst c

/-- The interpretations agree in the Wigner functions, the Clebsch-Gordan coefficients and the values of all angles. Nothing is
said about the other symbols (masses, widths) and the couplings. -/
structure SameAngles (ι ι' : Interp) : Prop where
  wig : ι'.wig = ι.wig
  cg : ι'.cg = ι.cg
  theta : ∀ i j : ℤ, ι'.sym ⟨"theta_" ++ toString i ++ toString j, .real⟩ =
    ι.sym ⟨"theta_" ++ toString i ++ toString j, .real⟩
  zeta : ∀ i k ref : ℤ, ι'.sym (zetaSymbol i k ref) = ι.sym (zetaSymbol i k ref)

/-- The state with other properties and the same ID. -/
def alterState (φ : Particle → Particle) (s : State) : State := ⟨φ s.toParticle, s.index⟩

/-- The object with other properties. -/
def alterObj (φ : Particle → Particle) : Obj → Obj
  | .particle p => .particle (φ p)
  | .state s => .state (alterState φ s)

/-- The decay node with other properties of the particles. -/
def alterNode (φ : Particle → Particle) : Node → Node
  | .leaf o => .leaf (alterObj φ o)
  | .isobar p c1 c2 ls => .isobar (alterObj φ p) (alterNode φ c1) (alterNode φ c2) ls

/-- The chain with other properties of the particles. -/
def alterChain (φ : Particle → Particle) (c : Chain) : Chain :=
  ⟨alterNode φ c.decay, alterState φ c.parent, alterObj φ c.resonance, alterState φ c.product1,
    alterState φ c.product2, alterState φ c.spectator, c.incomingLs, c.outgoingLs⟩

/-- The decay in which every particle `p` is replaced by `φ p`. -/
def alterDecay (φ : Particle → Particle) (d : Decay) : Decay :=
  ⟨d.states.map fun x => (x.1, alterState φ x.2), d.chains.map (alterChain φ)⟩

end Verif.Spec

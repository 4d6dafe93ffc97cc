import Verif.Props.Io
import Verif.Proofs.LatexChain
import Verif.Props.Decay

/-! C69: the LaTeX code of a decay chain can be read back. -/
namespace Verif.Io
open Verif Verif.ThreeBody

/-- C69: two decays have the same LaTeX code exactly if they have the same shape, particles and couplings. -/
theorem C69_node (withJp : Bool) (n n' : Node) (h : AllPlain n) (h' : AllPlain n') :
    latexNode withJp false n = latexNode withJp false n' ↔ SameDecay withJp n n' :=
  latexNode_iff withJp n n' h h'

theorem same_top {w : Bool} {n n' : Node} (h : SameDecay w n n') :
    SameParticle w n.toParticle.toP n'.toParticle.toP := by
  cases n <;> cases n'
  · exact h
  · exact h.elim
  · exact h.elim
  · exact h.1

/-- C69: the same for chains that the constructor returns. Parent, resonance, decay products and spectator have the
same names and the couplings are the same. -/
theorem C69_chain (withJp : Bool) (c c' : Chain) (hc : Chain.new c.decay = .ok c) (hc' : Chain.new c'.decay = .ok c')
    (h : AllPlain c.decay) (h' : AllPlain c'.decay) (e : latexChain c withJp false = latexChain c' withJp false) :
    SameParticle withJp c.parent.toParticle c'.parent.toParticle ∧
    SameParticle withJp c.resonance.toP c'.resonance.toP ∧
    SameParticle withJp c.product1.toParticle c'.product1.toParticle ∧
    SameParticle withJp c.product2.toParticle c'.product2.toParticle ∧
    SameParticle withJp c.spectator.toParticle c'.spectator.toParticle ∧
    c.incomingLs = c'.incomingLs ∧ c.outgoingLs = c'.outgoingLs := by
  obtain ⟨⟨⟨c1, c2, h1, h2, hn⟩, -⟩, -⟩ := (C16_chain_constructor _ c).1 hc
  obtain ⟨⟨⟨c1', c2', h1', h2', hn'⟩, -⟩, -⟩ := (C16_chain_constructor _ c').1 hc'
  rw [standsFor_iff] at h1 h2 h1' h2'
  have hs := (C69_node withJp _ _ h h').1 e
  rcases hn with hn | hn <;> rcases hn' with hn' | hn' <;> rw [hn, hn'] at hs
  · obtain ⟨p, -, i, ⟨r, -, o, a, b⟩, s⟩ := hs
    have a := same_top a
    have b := same_top b
    rw [h1, h1'] at a
    rw [h2, h2'] at b
    exact ⟨p, r, a, b, s, i, o⟩
  · exact hs.2.2.2.1.elim
  · exact hs.2.2.2.1.elim
  · obtain ⟨p, -, i, s, ⟨r, -, o, a, b⟩⟩ := hs
    have a := same_top a
    have b := same_top b
    rw [h1, h1'] at a
    rw [h2, h2'] at b
    exact ⟨p, r, a, b, s, i, o⟩

theorem exPlain (a b : Option LS) : AllPlain (exChain a b).decay := by
  intro o ho
  simp only [exChain, objects, List.mem_cons, List.mem_append, List.not_mem_nil, or_false] at ho
  rcases ho with (rfl | (rfl | rfl) | rfl) | rfl
  · exact ⟨⟨by decide, by decide, by decide, by decide⟩, .inr one_half.2, .inr (.inl rfl)⟩
  · exact ⟨⟨by decide, by decide, by decide, by decide⟩, .inr three_half.2, .inr (.inr rfl)⟩
  · exact ⟨⟨by decide, by decide, by decide, by decide⟩, .inr one_half.2, .inr (.inl rfl)⟩
  · exact ⟨⟨by decide, by decide, by decide, by decide⟩, .inl rfl, .inr (.inr rfl)⟩
  · exact ⟨⟨by decide, by decide, by decide, by decide⟩, .inl rfl, .inr (.inr rfl)⟩

/-- Chains of Λc → Λ(1520) π with other couplings have other LaTeX code. -/
example (i j i' j' : Option LS) (w : Bool) :
    Chain.new (exChain i j).decay = .ok (exChain i j) ∧ AllPlain (exChain i j).decay ∧
    (latexChain (exChain i j) w false = latexChain (exChain i' j') w false ↔ i = i' ∧ j = j') := by
  refine ⟨exChain_ok i j, exPlain i j, ?_, ?_⟩
  · intro e
    exact (C69_chain w _ _ (exChain_ok i j) (exChain_ok i' j') (exPlain i j) (exPlain i' j') e).2.2.2.2.2
  · rintro ⟨rfl, rfl⟩; rfl

/-- C69: with spaces in the names the LaTeX code does not determine the decay. -/
theorem C69_space_fails : ∃ n n' : Node, latexNode false false n = latexNode false false n' ∧
    ¬ SameDecay false n n' := by
  let o (x : String) : Obj := .state ⟨⟨x, x, 0, some 1, 0, 0⟩, 1⟩
  refine ⟨.isobar (o "D") (.leaf (o "K")) (.leaf (o "\\pi \\pi")) none,
    .isobar (o "D") (.leaf (o "K \\pi")) (.leaf (o "\\pi")) none, by decide, ?_⟩
  rintro ⟨-, -, -, h, -⟩
  exact absurd h.1 (by decide)

/-- C69: the text does not show the IDs of states. -/
theorem C69_not_shown : ∃ n n' : Node, AllPlain n ∧ AllPlain n' ∧ n ≠ n' ∧
    latexNode true false n = latexNode true false n' := by
  let o (i : ℤ) : Node := .leaf (.state ⟨⟨"K", "K", 0, some (-1), 0.5, 0⟩, i⟩)
  have h : ∀ i, AllPlain (o i) := by
    intro i x hx
    cases List.mem_singleton.1 hx
    have hp : PlainLatex "K" := ⟨by decide, by decide, by decide, by decide⟩
    exact ⟨hp, .inl rfl, .inr (.inr rfl)⟩
  refine ⟨o 1, o 2, h 1, h 2, ?_, rfl⟩
  intro e
  injection e with e
  injection e with e
  have := congrArg State.index e
  exact absurd this (by decide)

/-- The text of a chain with LS couplings, and without. -/
example :
    let p (n : String) (j : ℚ) (P : ℤ) : Particle := ⟨n, n, j, some P, 1, 0⟩
    let chain (a b : Option LS) : Node := .isobar (.state ⟨p "D" (1/2) 1, 0⟩)
      (.isobar (.particle (p "R" (3/2) (-1))) (.leaf (.state ⟨p "K" 0 (-1), 1⟩)) (.leaf (.state ⟨p "p" (1/2) 1, 2⟩)) b)
      (.leaf (.state ⟨p "q" 0 (-1), 3⟩)) a
    latexNode false false (chain (some ⟨1, 3/2⟩) (some ⟨2, 1/2⟩)) =
      "D \\xrightarrow[S=3/2]{L=1} \\left(R \\xrightarrow[S=1/2]{L=2} K p\\right) q" ∧
    latexNode true false (chain none none) =
      "D\\left[\\frac{1}{2}^+\\right] \\to \\left(R\\left[\\frac{3}{2}^-\\right] \\to K\\left[0^-\\right] p\\left[\\frac{1}{2}^+\\right]\\right) q\\left[0^-\\right]" := by
  decide +kernel

end Verif.Io

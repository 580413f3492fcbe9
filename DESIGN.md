# Formal model of benvial/nannos in Lean 4

## Layout

* `lean/Verif/Model/*.lean`: the model. Every definition cites the file and lines of `/repo` it models.
* `lean/Verif/Spec/*.lean`: small specifications used in theorem statements, written without the model's helpers.
* `lean/Verif/Proofs/*.lean`: helper lemmas.
* `lean/Verif/Examples/*.lean`: concrete simulations run inside Lean; they witness hypotheses and refute false claims.
* `lean/Verif/Props/*.lean`: the theorems named after the properties `Cxx`, with non-vacuity examples beside them.
* `properties.jsonl`: the properties in English. `MANIFEST.json`: property, status, theorem names.
* `seeded/LOG.jsonl`: wrong programs tried against the theorems. `tools/`: generators and the mutation driver.

## Trusted base

* The kernel of Lean 4.33.0 and Mathlib's definitions. Axioms: at most `propext`, `Classical.choice`, `Quot.sound`
  (table at the end). No `sorry`, `native_decide`, `bv_decide` or axioms of our own.
* That the model says what the Python says. It was written by reading `/repo`; nothing was run.
* The semantics given here to Python and numpy (indexing with negative indices, `int()` truncation, `//`, dictionary order,
  aliasing, default arguments, exceptions), in `Model/Prelude.lean` and in the comments of each definition.
* Contracts of code outside the repository, which appear as hypotheses or as parameters:
  * `linalg.eig`: when it returns, every column is an eigenvector for its eigenvalue and is not zero (`EigContract`). It need
    not be a basis; singular eigenvector matrices lead to `LinAlgError` in the model as in the code. C100 and C101 also ask
    for all eigenvalues with their multiplicities (`EigSpectrum`) and C100 for a basis when there is one (`EigBasis`).
  * `argsort`: any permutation that sorts (`ArgsortContract`); ties in any order.
  * `linalg.solve`, `linalg.inv`: exact, raising `LinAlgError` exactly for singular matrices. This is defined, not assumed.
  * `fft2`, `ifft2`: their defining sums. Defined, not assumed.
  * shapely's `contains`/`intersects`/`buffer` predicates: documented meaning (`ShapelyContract`).
  * `joblib.Parallel`: results in task order whatever the completion order; `scipy.optimize.minimize` and nlopt: any sequence
    of evaluations; `importlib.reload` and `logging`: documented behaviour.

## Modelling decisions

* Floating point is not modelled: `float64`, `complex128` become `ℝ`, `ℂ`. Every theorem is about exact arithmetic.
* A division by zero which numpy turns into `inf`/`nan` is the error value `PyErr.nonfinite`, so that no theorem profits from
  Lean's `x / 0 = 0`. Exceptions are values (`Except PyErr α`); effects before an exception are kept in the state.
* A simulation object is a pair of a `Static` part (what `__init__` computes) and a `Dyn` part (attributes of layers, flags,
  cache), changed by calls of type `PyM σ α = σ → Except PyErr α × σ`. `afterCalls E c hist d` is the object after the history
  `hist` of calls, including those that raised. Theorems about results are stated after any history.
* Layer objects have identities; `copy()` keeps a reference to its original. Mutable dictionaries of efficiencies live on a
  heap, so that aliasing shows (C11).
* Vectors of length `2 nh` are indexed by `Fin nh ⊕ Fin nh`; C16 proves that the slicing of the code agrees.

## Modelled and not modelled

| file | modelled | not modelled |
|------|----------|--------------|
| `excitation.py` | `PlaneWave` | plotting |
| `lattice.py` | constructor, `matrix`, `reciprocal`, `get_harmonics`, three truncations, `grid`, shapes and masks | deprecated aliases |
| `layers.py` | `Layer`, `copy`, solver entry points, `get_tangent_field` dispatch, `is_uniform`, `is_anisotropic` | plotting |
| `simulation.py` | `__init__`, `solve`, `reset`, `get_S_matrix`, flux, field retrieval, `get_ifft`, `get_ifft_amplitudes`, `get_field_grid`, efficiencies (real, complex, dictionaries), order lookup, stress tensor, Toeplitz matrices, `build_matrix`, `get_epsilon`, `_get_nu_hat_inv`, `_get_Peps` | `_get_Peps(direct=True)` (never called so), `inplane` plots, anisotropic patterned layers in `get_field_grid` without shape |
| `formulations/` | normalisation, Jones vectors, user-given tangent fields, generators `fft` and `opt` | the line search of scipy in `opt` beyond the acceptance of its first trial step (the search for the minimum is a parameter in `Model/Opt`, of which C106 asks that what it returns is a minimiser; `Model/NewtonCG` writes down the one iteration asked of scipy). Elsewhere generators are parameters `Ext.tangent` which may return anything or fail; `Ext.withGenerators` fills in the ones of the code |
| `optimize.py`, `utils/helpers.py`, `parallel.py`, `sample.py`, `geometry.py` | `next_power_of_2`, `simp`, `project`, `multi_simp`, `multi_project`, filter, `TopologyOptimizer.minimize`, `parloop`, `adaptive_sampler`, quadtree rasterisation, block helpers | colour maps, timing helpers |
| `plot.py` | boxes, values, matrices and offsets given to the plotting libraries, limits of the axes | rendering by pyvista and matplotlib, colours, cameras |
| `__init__.py`, `log.py` | backend, device, precision, logging state machine over histories | autodiff, GPU arithmetic |

Simplifications: `LayerAttr` is typed by the number of harmonics, so attributes left in a layer object by another simulation with
another number of harmonics are not representable; `mu` of patterned layers other than 1 is modelled but the field theorems
assume `mu = 1`, since the code ignores it in several places.

## Properties

"By" names the proof idea. Entries marked FALSE have a theorem refuting the English property with a concrete program, and a
`_partial` theorem for the part that holds.

* **C01, C02** `PlaneWave`. By trigonometric identities and the 2x2 inverse; failure exactly at grazing incidence.
* **C03, C04** reciprocal lattice and Bloch phase. By the 2x2 inverse and periodicity of the exponential.
* **C05-C07, C09** truncations and sorting. By induction on the ranges; candidates characterised independently in `Spec/Truncation`.
* **C08** the specular order is retained. FALSE for oblique lattices with circular truncation and few harmonics.
* **C10** order lookup. By distinctness of harmonics, proved for all three truncations.
* **C11** dictionaries. FALSE: reflection and transmission share their inner dictionaries. By a heap with aliasing.
* **C12** convolution matrices are well defined. FALSE in part: frequencies may alias, asymmetric sets may raise.
* **C13-C15** Fourier pair, Hermitian convolution matrices, real-space series. By orthogonality of characters.
* **C16-C18** block helpers, pointwise inverse, K matrices. By extensionality over slices.
* **C19** constant pattern = uniform layer. FALSE for an amplifying last layer: the branch of the square root differs.
* **C20, C21** modes. By block algebra and the sign convention of the square root.
* **C22-C26** scattering matrix: solves the stack, composes, zero thickness, splitting, homogeneous stack. By induction on the
  stack over an arbitrary commutative field.
* **C27** caching is transparent; **C28** `reset` (FALSE for edits of what the constructor read). By an invariant over histories.
* **C29-C31** continuity, Maxwell's equations, flux. From C22 and derivatives of the modal expansion, after any history.
* **C32, C33** energy conservation and passivity. The flux is monotone in the depth (derivative), continuous at interfaces.
* **C34, C35** complex amplitudes and totals.
* **C36** copies. FALSE: copies of uniform layers, copies before their original and edited copies.
* **C37, C38** lookup and validation. By case analysis, for all inputs, including the exceptions raised.
* **C39-C42** configuration and logging. By refinement of a four-component abstract state over histories; C40 FALSE.
* **C43, C44** rasterisation and masks. By well-founded induction on the quadtree.
* **C45, C46** adaptive sampler. Loop invariant; variant bounding the number of points.
* **C47** `parloop`. Permutation of completion orders.
* **C48** optimiser. FALSE when stopped by `stopval` with scipy.
* **C49, C50** projections and interpolations. Real analysis, Vandermonde.
* **C51, C60** density filter. FALSE for constants and for symmetric patterns (shifted).
* **C52** tangent and Jones vectors, pixel by pixel.
* **C53, C54** classification of materials, selection of field components.
* **C55** tangent formulation on bi-periodic lattices. FALSE: the projector has its diagonal blocks exchanged.
* **C56** anisotropic axes. FALSE: exchanged.
* **C57** circular truncation keeps the shortest vectors. FALSE unless the lattice is square.
* **C58** results do not depend on the eigenvectors returned. By a gauge transformation of all amplitudes.
* **C59** lattice grid = pixel grid. FALSE: end points included.
* **C61, C62** stress tensor. Derivative in the depth; momentum of the orders. C62 holds in the formulation `original`; in the
  others the exact variation is given (the code uses the convolution matrix for the displacement in all formulations).
* **C63, C64, C66, C67** unit of length, displacement, reflection, listing of orders. By a relation between two simulations
  (`Proofs/Similar*.lean`, `Proofs/Moved*.lean`, `Proofs/Scaled*.lean`) which every step of the computation preserves.
* **C65** rotation. FALSE with circular truncation on oblique lattices; proved in the formulation `original` when the same
  orders are retained.
* **C68** layer objects. Case analysis of the constructor; histories.
* **C69** layers shared by simulations. FALSE: modes live in the layers. Proved for undisturbed interleavings, by an invariant.
* **C70** generator `fft`. FALSE for lamellae along y when vectors are normalised and for absorbing inclusions. By the
  convolution theorem: smoothing is a convolution, which commutes with displacements and kills imaginary parts.
* **C71** generator `opt`. FALSE: most sizes are refused. Arithmetic of the strided array; histories.
* **C72, C73** Lorentz reciprocity. The bilinear form `E x H' - E' x H`, summed over opposite orders, is the same on both sides
  of every layer because the operators of two simulations with opposite waves are transposes of each other; then by the
  expansion in the two polarisations. Only the specular order: the truncated set is not closed under other exchanges.
* **C74** polarisation. The simulations of all polarisations share modes and scattering matrices; the incident amplitude is
  linear in the cosine and sine of the angle, fields are linear and fluxes quadratic in the incident amplitude.
* **C75** absorption. The derivative of the flux along the depth is the dissipation (Maxwell's equations of the model), then
  the fundamental theorem of calculus; the flux is continuous through interfaces, so the balance telescopes over the stack.
* **C76** unit cell. The machinery of C63-C67 (orders relabelled, tangential fields turned) with a change of lattice basis;
  the Fourier coefficients of the pattern on the two cells agree because every pixel lies on a pixel.
* **C77** rotation symmetry. C76 with the structure itself as its image gives the invariance of the quadratic law of C74
  under a rotation of the polarisation angle, hence a constant law.
* **C78** mirror symmetry. C66 with the structure as its own image, combined with the superposition of polarisations (C74).
* **C79** magnetic layers (permeability assigned to the layer after construction, the constructor refuses it). Specification:
  `Spec/Magnetic.lean` (Maxwell's equations with `mu`). Proved for fields with `hz` divided by `mu`, continuity with `hz` read as the
  induction, energy balance with the permeability of the superstrate on the right; counterexamples for the rest (partial).
* **C80** planar stacks. Specification: `Spec/Planar.lean` (films with a wave number, an impedance and a thickness, continuity of
  two tangential amplitudes). The modes of a homogeneous layer are split into the two polarisations, each a stack of films; the
  closed formulas are solved from the continuity equations. Existence: a partial stack whose scattering matrix cannot be computed
  has a field without a source, which conservation of energy excludes for passive layers.
* **C81** supercells and **C82** lamellar gratings on a lattice with two periods. Specification: `Spec/Supercell.lean` (cells taken
  together, repeated patterns, `EfficienciesAmong`, `FieldsAmong`: values at the images of the orders, zero at all others). Proof
  (`Proofs/Embedded*.lean`, `Proofs/Tiled.lean`): a solution for the small cell, extended by zero, solves the equations of every
  layer and interface for the large cell; the solution is unique. The convolution matrices of a repeated pattern map sequences
  supported on the orders of the small cell to such sequences. `C81_gratings` gives the number of harmonics for the truncation of
  mono-periodic lattices. Not covered: existence of one result given the other.
* **C83** only the structure matters. Specification: `Spec/Profile.lean` (`foundAt`: the material at a depth; `SameStructure`;
  `depthOf`, `InsideLayer`). The tangential field at a depth is the field at the top carried down by the exponential of the
  layers above (`carry`, `Proofs/Profile.lean`); slabs of one material carry fields in the same way whatever their modes
  (`Alike`), and carrying depends on the material at each depth only (`carryAll_profile`, induction over both lists, removing the
  thinner of the two first slabs). Uniqueness of the solution of the interface equations then gives amplitudes
  (`StackAlike.carryOver`), efficiencies and fields. Example: a patterned layer cut in two with a copy, a film of no thickness,
  and another thickness of the substrate.
* **C84** thickness of the superstrate. `Spec/Profile.lean` (`SameBelow`, `superstrateThickness`, `MultipliedFields`). The
  solution of the stack with one thickness is that of the other multiplied by the phase of the incident wave, as the incident
  wave has a single component of the wave vector along the normal; `Proofs/ProfileCore.lean` gives C83 and C84. With an
  absorbing superstrate the fields still follow this law (`structure_core`), the efficiencies do not.

* **C85** absorbing structures. `Spec/Absorbing.lean` (`Absorbing`: every field dissipates at every pixel). A scattering matrix
  is singular only if the layers below carry a field without incident waves (`NoSourceFrom`); by Poynting's theorem such a field
  dissipates nothing, so it vanishes in every absorbing layer, and the interfaces carry this to the others. The last step needs a
  layer of non-zero thickness when the substrate is lossless. Hypotheses kept: `solve` succeeded and the eigenvector matrices are
  invertible (LAPACK does not promise it).
* **C86** solving. `OneHalfPlane`: the numerical range of a convolution matrix is in the convex hull of the permittivities, so
  the matrix is invertible, and so is that of the reciprocal. The other calls of `build_matrix` cannot fail once the constructor
  accepted the lattice. Counterexample outside the half plane: `C86_mixed_signs_fail`.
* **C17**, **C19** also for the tensors of anisotropic patterns (`Props/Tensors.lean`): the model's pointwise inverse is the
  code's `block`, `inv2by2block`, `block2list`; a constant tensor gives the same operators in every formulation.

* **C87**, **C88** thicknesses as parameters. `Spec/Smooth.lean` (`withThicknesses`, `SmoothField`). Modes do not depend on the
  thickness, so only the phasors move; inverses are smooth where determinants do not vanish (C87), and meromorphic on the whole
  line otherwise, hence singular at isolated points (C88). `Proofs/Smooth.lean`, `Proofs/Isolated.lean` carry both through the
  loop of `get_S_matrix`, `_solve_int` and the fields with one bind rule each. No assumption on materials or eigenvectors.

* **C89** wavelength, angles, thicknesses and permittivities as parameters. `Spec/Parameters.lean` (`withMaterials`,
  `SmoothStructure`). The modes returned by `eig` need not depend continuously on anything, so the proof eliminates them: the
  tangential fields satisfy `d/dz (E, H) = i G (E, H)`, where `G` is built from the media of the layer only, and are carried from
  layer to layer by exponentials of `G` (`Proofs/Propagate.lean`). The outgoing amplitudes in the two outer layers then solve a
  linear system whose entries are smooth (`Proofs/ParamFormula.lean`), and which is regular because the solution is unique. The
  square roots of the outer layers are smooth on the closed upper half plane without zero (`csqrt_branch`).
* **C90** textbook efficiencies. `Spec/Classical.lean` (`normalWavenumber`, `intensity`, `incidentE`, `reflectedIntensity`) is
  written with the returned fields only. `Proofs/Classical.lean`: the flux of one order in a homogeneous lossless layer is
  `kz / omega` times the squared modulus of its electric field (`order_intensity`, an algebraic identity using the dispersion
  relation), and vanishes for an evanescent order; `Proofs/ClassicalRun.lean` relates the two calls of one simulation.
* **C91, C92** pictures. `Model/Plot.lean` models what is handed to pyvista and matplotlib: boxes with values and a matrix, offsets
  and limits. `Spec/Plot.lean` says what a point of the picture shows (`Painted`) and what it should show
  (`permittivityAt`). C91 FALSE for rectangular arrays, C92 FALSE for lattices with negative components. By the bijection
  between flat indices and pixels, and `Nat.floor`.
* **C93** Fourier coefficients. `Spec/Coefficients.lean` says when two patterns have the same retained coefficients. `Proofs/Alike.lean`
  runs two simulations in lockstep: if every layer hands the same matrices to the solver, every method returns or raises the same
  after every history. Single-order and homogeneous stacks are instances.
* **C94** thin layers: a film of no thickness leaves the structure as it is (C83), and results are continuous in the thickness (C87).
* **C95** energy with vector fields. FALSE: `Examples/Littrow*.lean` compute one simulation exactly (two orders in Littrow mount) with
  R = 0 and T > 1.15. With vectors which do not vary the projector is a number times the identity, so the matrices of the layer are
  Hermitian and the balance of C32 applies (`Proofs/EnergyVectors.lean`).
* **C96** scattering matrix and flux: the balance of C32 for arbitrary amplitudes on both sides (`Proofs/FluxBalance.lean`); the two
  calls of get_z_poynting_flux are shown to return because a scattering matrix only exists if no propagation constant vanishes.
* **C97**, **C98** when results are missing: a singular matrix in the recursion gives modal amplitudes of a wave without source in
  a part of the stack, and such a wave contradicts the uniqueness of C22 (`Proofs/Guided.lean`, `Proofs/GuidedRun.lean`;
  `Spec/Guided.lean` says what such a wave is). A surface plasmon between two homogeneous layers is one (`Proofs/Plasmon.lean`).
* **C99** `nannos.grad`: the global bound by each branch of the module body, part of the state machine of C39–C42; invariant over
  histories.
* **C100**, **C101** modes of gratings: on a mono-periodic lattice ky is one number and the matrix of the layer is block triangular;
  the two blocks are products of Hermitian matrices, one of them positive, and a shear decouples them
  (`Proofs/GratingMatrix.lean`, `Proofs/GratingModes.lean`). The characteristic polynomial is that at ky = 0, shifted.
* **C102** patterns painted with shapes: `ones`, `zeros`, `constant` and `Layer` of a lattice, and the statement `a[mask] = value` of numpy
  (`IndexError` unless the shapes agree); induction on the list of assignments, then C44 for what the masks contain.
* **C103** indices and wavelength multiplied by one number: the two simulations run in lockstep.  A map of states (permittivities times `p²`,
  convolution matrices times `p²`, their inverses and the matrices of the electric field divided by `p²`, modes and scattering matrices the
  same) is preserved by every method, failures included; the constructor and the incident wave are compared in the same way.
* **C104** stack turned upside down: the model of a layer (amplitudes referred to the top for downward and to the bottom for upward modes) is
  symmetric under turning up to the sign of the tangential electric field, so a consistent set of amplitudes of the stack read from the other end
  is consistent for the reversed list; the relation and the uniqueness of C22 then identify the four blocks.  `Static.turned` is the simulation the
  constructor returns for the reversed list; solved layers that are not copies have the same modes in both.
* **C105** as many orders as pixels: with a complete set of frequencies the convolution matrix of a pixel array `u` is `F diag(u) F⁻¹` (the
  indices of the differences wrap around), so convolution matrices multiply as the arrays do, the inverse rule gives the same matrix as the
  direct one (also blockwise for tensors), and the correction of the vector formulations is zero. The equality of the matrices, including the
  failures, is lifted to all calls and histories as in C93.

* **C106** (`Model/Opt`, `Spec/Opt`, `Proofs/Opt`, `Props/Opt`): the whole generator `opt` is modelled: slopes of the relative modulus,
  smoothing, function to minimise, amplitudes placed in an array with Python's indices, transform, bilinear interpolation,
  normalisation. The contract `Minimises` is the only thing asked of scipy. In exact arithmetic one step of Newton's method from zero
  meets it for orders in opposite pairs, since then the nonzero eigenvalues of the Hessian are equal. The parallelogram identity
  shows that two minimisers give one fit; orthogonality of the waves shows that the band-limited slopes are a minimiser.
  `Model/NewtonCG`, `Proofs/NewtonCG`, `Props/OptNewton`: the single iteration of scipy's `Newton-CG` from zero (outside `/repo`;
  written down from its published algorithm, with exact derivatives). By: for orders in opposite pairs the gradient at zero
  points at the minimum, so that one step of conjugate gradients reaches it, unless the curvature is at most `3 * 2^-52`.
* **C107** (`Proofs/GeneratorOrders`, `Props/GeneratorOrders`): `results_alike` reduces the claim to the matrix of one layer, and this to
  "asking again for as many harmonics as there are returns the same ones", proved for each truncation but the circular one, where C07
  gives the opposite. The square lattice is worked out from the specification of the circular truncation.
* **C86**, **C55**, **C95**, **C107** for vectors made by the generators (`Props/Solvable.lean`, `Props/AnyVectors.lean`,
  `Props/ZeroVectors.lean`): solving succeeds in every formulation when the layers get vectors on the pixels of the pattern (`VectorsMade`,
  shown for `fft` and for `opt` with its search), for numbers and for tensors (`SolvableTensors`: the pointwise inverses stay in
  one half plane, so their block convolution matrix is invertible); the exchanged projector and the energy
  statement are about the vectors actually used, whoever made them. With one order the slopes have mean zero on patterns clear of the
  border, so the vectors vanish.
* **C108**: `pointwiseInv` now has the three branches of `inv2by2block` on the assembled array: square arrays, arrays which numpy cuts and
  broadcasts without complaint (`mixedInv`; when `Nx > Ny` one column is broadcast, only if `2 Ny = Nx + 1`), and those it refuses. The
  branch `Nx < Ny` is linked to the list-level functions of `Model/Blocks.lean` (`C108_wide_arrays`); the broadcasting branch is not, since
  these functions do not broadcast. Theorems which need the inverses of tensors to follow the pattern carry `SquareTensors`.
* **C109**: `Spec/Wave.lean` gives the direction and the polarisation vector as textbook formulas in degrees. The objects of the two
  simulations differ only by attributes of the wave which no method reads (`Proofs/Rewave.lean`: method by method, by unfolding), so the
  calls agree.
* **C110**: `Spec/GratingEquation.lean` states the grating equation on the basis vectors of the lattice, without reciprocal vectors,
  and what evanescent means. The equation has one solution, the wave vector the simulation uses (`grating_vector`); the flux of an
  order is proportional to the real part of its normal wave number, which is zero then. The rest combines this with C32.
* **C111** thickness of the last layer. In the recursion it multiplies the blocks `S12` and `S22` only (`stepS_below`), and in the
  fields the waves coming from below, which are absent. `Transfers` compares two runs state by state.
* **C112** fields in real space. FALSE at oblique incidence. Specification: `Spec/RealSpace.lean` (sum of plane waves at a point, with
  the wave vectors of the grating equation). By C54 the grids are Fourier series; the phases of the orders differ from that of
  the incident wave by those of the series. Counterexample by the closed form of C80.
* **C113** power in real space. Parseval's identity for orders which differ on the grid, with C54; the fluxes at the ends of the stack
  are those of C75 (`flux_balance`).
* **C114** power at every depth. The amplitudes of the layer where the fields are retrieved are those of the solution of the whole
  stack (`ampV_solution`); the power lost above that depth and below it has the sign of the losses (`stack_loss`, `power_loss`).
* **C115** `next_power_of_2`. By the monotony of the logarithm; below one half the power is a fraction and is cut to zero.
* **C116** Half-wave layers. The phase across the layer is the sign s; the fields on its two sides then differ by s, so the equations
  of the stack with it are those of the stack without it, with all the waves below multiplied by s.
* **C117** half waves of thickness. The loop of `get_S_matrix` is followed with a sign on each block (`loopS_signs`), so that the
  result exists for one thickness when it exists for the other.
* **C118** thick opaque layers. The loop of `get_S_matrix` is a continuous function of the phases of the layer where its inverses
  exist, and the phases tend to zero; with zero phases nothing of the part below comes back, which leaves the cut stack.
* **C119** frustrated total reflection. C118 with the cut stack of `C80_total_reflection`; the matrix of the part below the gap exists
  because a wave leaving it would carry power, and an evanescent wave alone carries none.
* **C120** films without reflection. From `C80_airy`: between equal media the numerator is (1 - exp(2iqt))(Z0^2 - Z1^2), and each factor is
  solved for both polarisations.

## Findings (defects of the code exhibited by theorems)

1. C08: oblique lattices may drop the specular order; the incident amplitude then lands on another order.
2. C11: `return_dict=True` returns two dictionaries which share inner dictionaries; complex ones raise `KeyError`.
3. C12: two different frequency differences can read the same Fourier coefficient although the constructor accepted the grid.
4. C19, C28, C36, C40, C48: see the notes in `MANIFEST.json`.
5. C51, C60: the filter multiplies constants by more than one and moves patterns.
6. C54: a field on a grid without shape in a uniform layer raises `IndexError`.
7. C55: the formulations `tangent`, `jones`, `pol` apply the inverse rule to the wrong component on bi-periodic lattices.
8. C56: the transverse tensor of anisotropic patterns is rotated by a quarter turn.
9. C57: the metric of the circular truncation uses one row of the reciprocal matrix twice.
10. C59: the grid on which shapes are drawn is stretched by `N / (N - 1)`.
11. C65: the circular truncation of an oblique lattice keeps other orders when the lattice is turned.
12. C69: two simulations on the same layer objects overwrite each other's modes; a solved simulation then returns results for
    the wavelength of the other one.
13. C70: the generator `fft` does not see contrasts of absorption; normalised vectors are `(1, 0)` where the smoothed gradient is
    small, whatever the pattern.
14. C71: the default generator `opt` refuses, with `ValueError`, patterns of e.g. 100 by 100 or 32 by 64 pixels.
15. C79: with a permeability the returned `hz` is the induction, not the field (`C79_returned_fields_fail`).
16. C79: below a superstrate of permeability `mu` a lossless stack returns `R + T = mu` (`C79_energy_magnetic_superstrate`).
17. C79: the principal square root has the wrong sign in media with negative permittivity and permeability: `R = 9`, `T = -8`
    (`C79_negative_index`).
18. C91: `plot_structure` lays the pixels of a rectangular array on a grid with exchanged numbers of pixels but not of sizes; for
    every grating part of the period is left empty.
19. C92: `plot_layer` takes the limits of the axes from the lengths of the basis vectors and cuts unit cells with negative
    coordinates.
20. C95: in two-dimensional lattices the formulations with tangent vectors multiply the projector and the permittivities in an order
    which is not symmetric; a lossless grating sends out more than 115 % of the power it receives.
21. `get_z_stress_tensor_integral` computes the displacement from the convolution matrix of the permittivity whatever the
    formulation (`simulation.py:518-557`), while with `tangent`, `jones`, `pol` the fields obey another operator. The normal
    component of the stress then depends on the depth inside a lossless layer: by 3/25 between the top and the bottom of a
    quarter-wave grating with `tangent` (`C62_normal_stress_varies`).
22. The fields in an inner layer are computed from the scattering matrices above and below it, so they are never returned when the
    part below supports a wave by itself, although the whole stack does not. Example (Otto configuration): a prism of permittivity
    8/3, a gap of air, a metal of permittivity -2, incidence 60 degrees, any polarisation. The efficiencies are returned,
    `get_S_matrix((1, 2))` and every field in the gap raise `LinAlgError` (`C98_otto_counterexample`; in floating point the
    matrix is nearly singular instead).
23. The generator `'fft'` of tangent vectors tiles the pattern three times and takes differences with `gradient`, which is one-sided
    at the ends, where it should continue the pattern periodically; what is smoothed afterwards reaches the central copy. The
    vectors of a displaced pattern are then not the displaced vectors (`C70_displacement_fails_at_border`, three pixels).
24. The normalisation of generated vectors compares the smoothed gradient with the absolute numbers `1e-6` and machine epsilon, so the
    vectors depend on the unit of permittivity, and every pattern of sufficiently low contrast gets the vector `(1, 0)` at every
    pixel, whatever its shapes (`C70_weak_patterns`, `C103_generated_vectors_see_factor`).
25. The default generator `opt` looks at the modulus of the permittivity only: the interface between materials of equal modulus (a
    metal of permittivity -2 in a dielectric of permittivity 2) is not seen, the vector is `(1, 0)` at every pixel
    (`C106_equal_moduli_show_no_interface`).
26. On patterns of more than 64 pixels a side, `opt` takes the slopes at every m-th pixel and spreads the fitted values evenly up to
    the last pixel: the vectors are stretched over the cell, those of the last pixel being made of the slopes `m - 1` pixels
    before it (`C106_finer_patterns_are_stretched`).
27. `build_matrix` asks the lattice for `nh` orders again when it needs tangent vectors, with `nh` the number it got. The circular
    truncation (the default) returns strictly fewer than asked, so the generator sees strictly fewer orders than the simulation has: with
    `nh = 9` on a square lattice the simulation has five orders and the generator one, and its vectors do not depend on the pixel
    (`C107_circular_fewer_orders`, `C107_square_nine`). For patterns clear of the border of the cell the formulations `jones` and `pol` then
    return exactly what `original` returns, and `tangent` uses the vector (1, 0) everywhere (`C107_square_nine_is_original`,
    `C107_square_nine_tangent`).
28. Tensors on an array with `Nx != Ny` pixels: `_get_nu_hat_inv` assembles the four components into a `2 Nx` by `2 Ny` array and passes
    only `Nx` to `inv2by2block` and `block2list`, which cut it in squares. In the formulations `tangent`, `jones` and `pol`, `solve` then
    raises or divides by zero for every pattern without off-diagonal components, for every constant tensor and, when `Nx > Ny` and
    `Nx + 1 != 2 Ny`, for every pattern (`C108_rectangular_arrays_fail`); otherwise it inverts wrong matrices (`C108_wide_arrays`,
    `C108_wrong_inverse`).
29. Angles with `cos(theta) < 0` are accepted although the wave then travels away from the structure: the tangential amplitudes are those
    of the mirror image, but the efficiencies are divided by the negative incident flux, so they add up to -1
    (`C109_receding_wave`, `C109_negative_efficiencies`).
30. The formulation `jones` does not respect mirror planes. The ellipses drawn by its complex vectors are all described in the same sense
    (`jones.py:17-25`), also in the reflected structure. A lossless grating with a mirror plane then turns half of the transmitted power into
    the other polarisation (`C78_jones_mixes_polarisations`). Half turns are respected (`C66_reflection`, `C78_opposite_orders`).
31. The formulation `jones` does not respect reciprocity, for the same reason: its projections are complex Hermitian, not symmetric, as the
    permittivity of a magnetised medium. With real permittivities and constant vectors the specular field transmitted into the other
    polarisation has opposite signs from the two sides of a stack (`C73_jones_is_not_reciprocal`). C72 and C73 are proved for the formulations
    whose operators are symmetric, including `tangent` and `pol` with one real tangent vector for each patterned layer.
32. The formulations with tangent vectors depend on the orientation of the structure. The projector exchanges the components of the
    vectors (finding on C55), so rows turned by an angle act as rows turned the other way. Turning rows on a square lattice, their
    tangent vectors and the wave by 45 degrees changes the reflectance from 0 to 144/169 (`C65_tangent_depends_on_orientation`).
    Multiples of 90 degrees are harmless (`C65_rotation_partial`).
33. `get_field_grid` and the methods built on it sum the Fourier components without the phase `exp(i k.r)` of the incident wave along the
    layers. At oblique incidence the real-space fields they return are the periodic part of the fields: moduli are right, phases, real parts
    and interference with anything else are not (`C112_phase_missing`, `C112_periodic_part_partial`).

<!-- generated -->

## Definitions of the model and the code they cite

`Model/Amplitudes.lean`: getAmplitudesAt (nannos/simulation.py:731-749, nannos/simulation.py:588-708)

`Model/Blocks.lean`: Arr2 (nannos/utils/helpers.py:91-122); hstack2 (nannos/utils/helpers.py:92-93); vstack2 (nannos/utils/helpers.py:94); blockL (nannos/utils/helpers.py:91-94); slice (nannos/utils/helpers.py:97-98); getBlock (nannos/utils/helpers.py:97-98); block2list (nannos/utils/helpers.py:110-111); map2 (nannos/utils/helpers.py:101-122); neg2 (nannos/utils/helpers.py:119-120); blockmatmul (nannos/utils/helpers.py:101-107); inv2by2block (nannos/utils/helpers.py:114-122); matmuldiag (nannos/simulation.py:869-870); buildK (nannos/simulation.py:868-879)

`Model/Config.lean`: Backend (nannos/__init__.py:214-223); Backend.ofName (nannos/__init__.py:171-194); PkgEnv (nannos/__init__.py:48-77); PkgEnv.available (nannos/__init__.py:36, nannos/__init__.py:80-84); Handler (nannos/log.py:44-51); LogState (nannos/log.py); logLevels (nannos/log.py:16-22); removeLoop (nannos/log.py:50); setLogLevel (nannos/log.py:25-51); Globals (nannos/__init__.py:87-121); Globals.empty (nannos/__init__.py:332-350); Globals.getBackend (nannos/__init__.py:213-223); Globals.getCuda (nannos/__init__.py:311-312); Globals.choose (nannos/__init__.py:171-190); Globals.chooseGpu (nannos/__init__.py:87-120); Globals.refresh (nannos/__init__.py:332-334); Backend.module (nannos/__init__.py:230-308); Backend.gradient (nannos/__init__.py:233,236,267,290-299,308); Globals.callGrad (nannos/__init__.py:226-227,236,290-299); pkgSet (nannos/__init__.py:141-197); pkgGpu (nannos/__init__.py:87-121); pkgSelect (nannos/__init__.py:230-308); pkgEnvBackend (nannos/__init__.py:336-346); pkgEnvGpu (nannos/__init__.py:348-350); pkgBody (nannos/__init__.py:230-350); Globals.relog (nannos/__init__.py:208-210); pkgReload (nannos/__init__.py:200-210); ConfigCall (nannos/__init__.py:87,141,315); pkgImport (nannos/__init__.py:27); configStep (nannos/__init__.py:315-321); configAfter (nannos/__init__.py:200-210)

`Model/Excitation.lean`: PlaneWave (nannos/excitation.py:34-71); inv2 (nannos/excitation.py:69, nannos/lattice.py:100); powHalf (nannos/excitation.py:68); planeWave (nannos/excitation.py:34-71)

`Model/FieldGrid.lean`: getIfftAmplitudes (nannos/simulation.py:345-365); Part (nannos/simulation.py:395-428); Selected (nannos/simulation.py:395-428); GridOut (nannos/simulation.py:367-429); selectFields (nannos/simulation.py:386-423); eParts (nannos/simulation.py:382-383); hParts (nannos/simulation.py:382-383); partAt (nannos/simulation.py:395-428); getFieldGrid (nannos/simulation.py:367-429); getEfieldGrid (nannos/simulation.py:430-434); getHfieldGrid (nannos/simulation.py:436-440)

`Model/Filter.lean`: linspaceSym (nannos/utils/helpers.py:144-149); trapz (nannos/utils/helpers.py:151,153); bump (nannos/utils/helpers.py:150-153); shiftIdx (nannos/utils/helpers.py:161); applyFilter (nannos/utils/helpers.py:135-161)

`Model/Fourier.lean`: Grid (nannos/formulations/fft.py:21-42); fft2 (nannos/formulations/fft.py:27); ifft2 (nannos/formulations/fft.py:38); fourierTransform (nannos/formulations/fft.py:21-29); inverseFourierTransform (nannos/formulations/fft.py:32-40); pyFin (nannos/simulation.py:577-586); toeplitz (nannos/simulation.py:577-586); getIfft (nannos/simulation.py:335-343); getEpsilon (nannos/simulation.py:717-725); maxHarmonic (nannos/simulation.py:98); checkNyquist (nannos/simulation.py:98-102)

`Model/Generators.lean`: entry (nannos/formulations/tangent.py:43); gradientAxis (nannos/formulations/tangent.py:43-44); gradient (nannos/formulations/tangent.py:43-44,132); tile3 (nannos/formulations/tangent.py:39-40); fftfreq (nannos/formulations/tangent.py:48-49); ftFilt (nannos/formulations/tangent.py:29-32); weightedNormalPt (nannos/formulations/tangent.py:45-47); spread (nannos/formulations/tangent.py:48-54); centre (nannos/formulations/tangent.py:56); maxNorm (nannos/formulations/tangent.py:64,228); tangentFft (nannos/formulations/tangent.py:35-65); stridedLength (nannos/formulations/tangent.py:166); broadcastable (nannos/formulations/tangent.py:178); tangentOpt (nannos/formulations/tangent.py:66-230); tangentGenerator (nannos/formulations/tangent.py:233-241); Ext.withGenerators (nannos/formulations/tangent.py:233-241)

`Model/Geometry.lean`: Rect (nannos/geometry.py:24-31); Shapely (nannos/geometry.py:24-105); Mask (nannos/geometry.py:34-40); Mask.fill (nannos/geometry.py:34-40); Mask.slice (nannos/geometry.py:43-105); Mask.put (nannos/geometry.py:34-40); gridRect (nannos/geometry.py:24-31); shapeMask (nannos/geometry.py:43-105); linspace01 (nannos/geometry.py:109-110); Mask.transpose (nannos/geometry.py:108-117); geometryMask (nannos/geometry.py:108-117); Lattice.unitGrid (nannos/lattice.py:147-161); Lattice.grid (nannos/lattice.py:163-192); Lattice.geometryMask (nannos/lattice.py:227-241); no1d (nannos/lattice.py:137-145); Lattice.polygonMask (nannos/lattice.py:243-245, nannos/geometry.py:120-122); Lattice.circleMask (nannos/lattice.py:247-249, nannos/geometry.py:125-127); Lattice.ellipseMask (nannos/lattice.py:251-253, nannos/geometry.py:130-137); rectShape (nannos/geometry.py:140-151); Lattice.rectangleMask (nannos/lattice.py:259-261); Lattice.squareMask (nannos/lattice.py:255-257, nannos/geometry.py:154-155); Lattice.stripe (nannos/lattice.py:263-264)

`Model/Helpers.lean`: pyTrunc (nannos/utils/helpers.py:78); nextPowerOf2 (nannos/utils/helpers.py:77-78)

`Model/Lattice.lean`: Truncation (nannos/lattice.py:61,65); Lattice (nannos/lattice.py:59-69); BasisArg (nannos/lattice.py:42-69); DiscArg (nannos/lattice.py:42-69); mkLattice (nannos/lattice.py:42-69); Lattice.matrix (nannos/lattice.py:79-88); Lattice.reciprocal (nannos/lattice.py:91-100); Lattice.area (nannos/lattice.py:72-76); gather (nannos/lattice.py:121,311,344); oneDimTruncation (nannos/lattice.py:287-292); meshFlat (nannos/lattice.py:306-307,337-338); rowNorm (nannos/lattice.py:296,321); rowDot (nannos/lattice.py:297,322); rowCross (nannos/lattice.py:323); gl2 (nannos/lattice.py:309,341); parallelogramicTruncation (nannos/lattice.py:295-317); downTo (nannos/lattice.py:352-355); uExtent (nannos/lattice.py:325-335); circularTruncation (nannos/lattice.py:320-359); Lattice.getHarmonics' (nannos/lattice.py:124-135); Lattice.getHarmonics (nannos/lattice.py:102-122); k0para (nannos/simulation.py:113-116); kxOf (nannos/simulation.py:117-122); kyOf (nannos/simulation.py:123-127)

`Model/Layer.lean`: NdArr (nannos/layers.py:48-74); isAnisotropic (nannos/utils/helpers.py:55-56); isUniform (nannos/utils/helpers.py:59-65); NdArr.value (nannos/layers.py:160-172); NdArr.comp (nannos/simulation.py:588-708); NdArr.scalar (nannos/layers.py:48-74); NdArr.ofGrid (nannos/layers.py:48-74); PGrid (nannos/simulation.py:577-586); NdArr.toGrid (nannos/simulation.py:577-586); csqrt (nannos/simulation.py:109,115, nannos/layers.py:169,210); Field2 (nannos/layers.py:261-274); LayerSpec (nannos/layers.py:48-74); LayerSpec.isUniform (nannos/layers.py:241-251); LayerSpec.isAnisotropic (nannos/layers.py:233-235); mkLayer (nannos/layers.py:48-74); copyLayer (nannos/layers.py:215-231); Idx (nannos/simulation.py:534); Ext (nannos/layers.py:26-28, nannos/formulations/tangent.py:233-241); PatAttrs (nannos/simulation.py:689-698); LayerAttr (nannos/simulation.py:588-708); LayerAttr.empty (nannos/layers.py:48-74); LayerAttr.reset (nannos/layers.py:109-117); solveUniform (nannos/layers.py:119-174); modeSqrt (nannos/layers.py:210-211); solveEigenproblem (nannos/layers.py:197-213); Static (nannos/simulation.py:44-157); Static.nh (nannos/simulation.py:86-87); Static.m (nannos/simulation.py:534); diag2 (nannos/simulation.py:588-708); recipGrid (nannos/simulation.py:770-785); Static.toep (nannos/simulation.py:577-586); Trans4 (nannos/simulation.py:588-708); Trans4.mapM (nannos/simulation.py:588-708); Trans4.block (nannos/simulation.py:588-708); NdArr.trans (nannos/simulation.py:588-708); beside (nannos/utils/helpers.py:91-94); inv4 (nannos/utils/helpers.py:114-122); mixedInv (nannos/simulation.py:773-777, nannos/utils/helpers.py:91-122); pointwiseInv (nannos/simulation.py:773-777); nuHatInvIso (nannos/simulation.py:781-784); nuHatInvAniso (nannos/simulation.py:772-779); normPt (nannos/utils/helpers.py:81-88); projField (nannos/simulation.py:825-830); getPeps (nannos/simulation.py:787-788,823-847); jonesPt (nannos/formulations/jones.py:17-25); jonesField (nannos/formulations/jones.py:17-25); getTangentField (nannos/layers.py:261-274, nannos/formulations/tangent.py:233-241); pepsOf (nannos/simulation.py:653-675); paraOf (nannos/simulation.py:642-643); epsParaHatOf (nannos/simulation.py:642-645); BuiltLayer (nannos/simulation.py:588-708); buildPure (nannos/simulation.py:603-708)

`Model/NewtonCG.lean`: dotU; normOne; unitU; gradAt (nannos/formulations/tangent.py:192); hesspAt (nannos/formulations/tangent.py:193); cgLoop; newtonCG (nannos/formulations/tangent.py:185-198)

`Model/Opt.lean`: normOptPt (nannos/formulations/tangent.py:89-92); maxNormOpt (nannos/formulations/tangent.py:141,228); relativeModulus (nannos/formulations/tangent.py:104-105); slopes (nannos/formulations/tangent.py:132-141); reducedSide (nannos/formulations/tangent.py:107-108); strided (nannos/formulations/tangent.py:112-113,166); placed (nannos/formulations/tangent.py:151-158); getAmps (nannos/formulations/tangent.py:151-160); Unknowns (nannos/formulations/tangent.py:173-174); fitted (nannos/formulations/tangent.py:173-176,198-202); minifun (nannos/formulations/tangent.py:172-183); interpNode (nannos/formulations/tangent.py:206-211); interpolate (nannos/formulations/tangent.py:213-215); finishOpt (nannos/formulations/tangent.py:219-228); optFit (nannos/formulations/tangent.py:104-230)

`Model/Optimize.lean`: powR (nannos/optimize.py:21-22,42-58); simpInterp (nannos/optimize.py:21-22); project (nannos/optimize.py:25-33); thresholds (nannos/optimize.py:37); multiProject (nannos/optimize.py:36-39); linPt (nannos/optimize.py:37,48); multiSimp (nannos/optimize.py:42-58); Strategy (nannos/optimize.py:162-170,202-221); Trace (nannos/optimize.py:146-154, nannos/optimize.py:184-199); StopFunObj (nannos/optimize.py:67-77); stopFun (nannos/optimize.py:72-77); runScipy (nannos/optimize.py:160-176); runNlopt (nannos/optimize.py:202-221); OptMethod (nannos/optimize.py:95-101,143,178); outerStep (nannos/optimize.py:135-222); outerLoop (nannos/optimize.py:134-223); topoMinimize (nannos/optimize.py:123-223)

`Model/Orders.lean`: dget (nannos/simulation.py:88-96); dset (nannos/simulation.py:88-96); Cell (nannos/simulation.py:483-491); OrderDicts (nannos/simulation.py:88-96); OrderDicts.setInner (nannos/simulation.py:88-96); OrderDicts.insert (nannos/simulation.py:89-95); OrderDicts.build (nannos/simulation.py:88-96); OrderDicts.read (nannos/simulation.py:488,572); OrderDicts.write (nannos/simulation.py:483-491); cellGet (nannos/simulation.py:483-491); OrderArg (nannos/simulation.py:559-572); getOrderIndex (nannos/simulation.py:559-572); getOrder (nannos/simulation.py:574-575); dictBody (nannos/simulation.py:485-490); dictLoop (nannos/simulation.py:485-490); efficiencyDicts (nannos/simulation.py:482-491); diffractionDicts (nannos/simulation.py:441-492); complexDicts (nannos/simulation.py:441-492)

`Model/Parallel.lean`: runTasks (nannos/parallel.py:25-27); collect (nannos/parallel.py:25-27); joblibParallel (nannos/parallel.py:25-27); parloop (nannos/parallel.py:20-25)

`Model/Pattern.lean`: Lattice.ones (nannos/lattice.py:194-203); Lattice.zeros (nannos/lattice.py:205-214); Lattice.constant (nannos/lattice.py:216-225); NdArr.assign (nannos/lattice.py:227-264); NdArr.assignAll; Lattice.layer (nannos/lattice.py:266-284)

`Model/Plot.lean`: PlotCell (nannos/plot.py:120-134,164-170); PlotMesh (nannos/plot.py:135-143,172-187); imageCells (nannos/plot.py:120-134,164-170); uniqueValues (nannos/plot.py:171); threshold (nannos/plot.py:174-176); plotMatrix (nannos/plot.py:105-112); plotOne (nannos/plot.py:120-196); plotLayers (nannos/plot.py:117-198); thicknessValue (nannos/plot.py:102); chooseNull (nannos/plot.py:102); plotStructure (nannos/plot.py:87-203); LayerPicture; PerArg (nannos/plot.py:47-52); plotLayer (nannos/plot.py:35-84); plotUnitCell (nannos/plot.py:24-33)

`Model/Prelude.lean`: PyErr (nannos/simulation.py:54-64,270-271); pyIdx (nannos/simulation.py:577-586, nannos/layers.py:280-312); pyGet (nannos/layers.py:280-312); raiseIf (nannos/simulation.py:54-64); pyRange (nannos/simulation.py:219-284); PyM (nannos/simulation.py:179-217); PyM.lift (nannos/simulation.py:179-217); PyM.get (nannos/simulation.py:179-217); PyM.modify (nannos/simulation.py:179-217); attr (nannos/simulation.py:219-284)

`Model/SMatrix.lean`: linSolve (nannos/simulation.py:270,271,759,918); linSolveVec (nannos/simulation.py:323,759); linInv (nannos/simulation.py:24); Modes (nannos/simulation.py:257-263,883-890); Modes.z (nannos/simulation.py:258-259); phasor (nannos/simulation.py:855-856); Modes.f (nannos/simulation.py:258-262); Modes.amat (nannos/simulation.py:885-889); buildM (nannos/simulation.py:882-890); buildI (nannos/simulation.py:910-918); SMat (nannos/simulation.py:219-284); SMat.one (nannos/simulation.py:240-243); stepS (nannos/simulation.py:257-277); stepAt (nannos/simulation.py:257-277); freshS (nannos/simulation.py:240-277)

`Model/Sample.lean`: npUnique (nannos/sample.py:99,103,119); firstIndex (nannos/sample.py:119); bending (nannos/sample.py:76-86); windowNew (nannos/sample.py:65-102); npMin (nannos/sample.py:58-61); npMax (nannos/sample.py:58-61); SampleParams (nannos/sample.py:15); getNew (nannos/sample.py:54-103); functionAdapted (nannos/sample.py:43-52); takeIdx (nannos/sample.py:124); samplerLoop (nannos/sample.py:112-129); adaptiveSampler (nannos/sample.py:15-131)

`Model/Sim.lean`: unique (nannos/utils/helpers.py:46-48); zerothIndex (nannos/simulation.py:136-138); effectiveNh (nannos/simulation.py:65-73); simInit (nannos/simulation.py:44-157); Dyn (nannos/simulation.py:44-217); Dyn.fresh (nannos/simulation.py:44-157); LayerId (nannos/layers.py:280-312); getLayer (nannos/layers.py:280-312); Dyn.setAttr (nannos/simulation.py:588-708); buildMatrix (nannos/simulation.py:588-708); solveModes (nannos/simulation.py:188-191, nannos/layers.py:119-213); solveLayer (nannos/simulation.py:184-203); solveAll (nannos/simulation.py:179-207); solve (nannos/simulation.py:179-207); ensureSolved (nannos/simulation.py:219-333); simReset (nannos/simulation.py:209-217); modesOf (nannos/simulation.py:255-263); layerModes (nannos/simulation.py:255-263); sBody (nannos/simulation.py:256-277); sLoop (nannos/simulation.py:245-280); interfaces (nannos/simulation.py:243-250); cachedLoop (nannos/simulation.py:252-277); getS (nannos/simulation.py:219-284); solveExt (nannos/simulation.py:763-768, nannos/simulation.py:149); solveInt (nannos/simulation.py:751-761); getAmplitudes (nannos/simulation.py:731-749); translateAmplitudes (nannos/simulation.py:923-927); FieldF (nannos/simulation.py:300-333); normalE (nannos/simulation.py:321-325); fieldAt (nannos/simulation.py:310-329); getFieldFourier (nannos/simulation.py:300-333); poyntingFlux (nannos/simulation.py:286-298); getZPoyntingFlux (nannos/simulation.py:286-298); ensureS (nannos/simulation.py:463-464); efficienciesByOrder (nannos/simulation.py:463-476); Efficiencies (nannos/simulation.py:441-492); diffractionEfficiencies (nannos/simulation.py:441-492); ComplexOrders (nannos/simulation.py:494-516); realSqrts (nannos/simulation.py:508-509); complexOrders (nannos/simulation.py:494-516); complexEfficiencies (nannos/simulation.py:463-469)

`Model/Stress.lean`: stressDisp (nannos/simulation.py:531-542); stressOf (nannos/simulation.py:521-557); getZStress (nannos/simulation.py:518-557)

`Model/Tangent.lean`: normalizePt (nannos/formulations/tangent.py:17-20); normalizeVecPt (nannos/formulations/tangent.py:23-26); normalizeField (nannos/formulations/tangent.py:60-62)

## Axioms of the property theorems (`#print axioms`)

* propext: C47_bad_calls

* Classical.choice, Quot.sound, propext: C01_plane_wave_is_transverse, C02_modal_amplitude_is_magnetic_amplitude, C03_area, C03_reciprocal_lattice_is_dual, C04_harmonics_share_bloch_phase, C05_mono_periodic_truncation, C06_nh_zero_miscounts, C06_parallelogrammic_truncation, C07_circular_truncation, C08_missing_on_oblique_lattice, C08_specular_order_missing, C08_specular_order_retained_partial, C09_sorting_only_reorders, C100_lossless_grating_modes, C100_lossless_grating_results, C101_conical_modes, C102_disc, C102_layer, C102_painting, C102_stripes, C103_denser_stack, C103_denser_stack_opt, C103_generated_vectors_see_factor, C104_mirror_stack, C104_stack_upside_down, C105_as_many_orders_as_pixels, C105_crossed_gratings, C105_gratings, C106_any_minimiser, C106_band_limited_slopes, C106_default_vectors, C106_displacement, C106_displacement_default, C106_equal_moduli_show_no_interface, C106_finer_patterns_are_stretched, C106_one_iteration_finds_the_minimum, C106_only_moduli, C106_orders_of_a_simulation, C106_relative_lengths, C106_slope_lengths, C107_circular_fewer_orders, C107_generated_is_given_partial, C107_one_order_same_vector, C107_square_nine, C107_square_nine_is_original, C107_square_nine_tangent, C108_rectangular_arrays_fail, C108_wide_arrays, C108_wrong_inverse, C109_angles, C109_receding_wave, C109_same_results, C109_same_wave, C10_get_order_arguments, C10_order_lookup, C10_other_arguments, C110_reflected_orders, C110_specular_only, C110_subwavelength, C110_total_reflection, C110_transmitted_orders, C111_thickness_of_the_last_layer, C112_normal_incidence, C112_periodic_part_partial, C112_phase_missing, C113_mean_over_pixels, C113_reflected_power, C113_transmitted_power, C114_grid, C114_lossless, C114_passive, C115_natural_numbers, C115_negative_numbers, C115_next_power_of_2, C115_small_numbers, C116_get_S_matrix, C116_half_wave_layer, C117_half_waves_of_thickness, C118_absorbing_stack, C118_thick_layer, C119_frustrated_total_reflection, C11_complex_dictionaries_one_order, C11_complex_dictionaries_raise, C11_dictionaries_fail, C11_dictionaries_partial, C120_film_without_reflection, C12_asymmetric_harmonics_raise, C12_convolution_matrices_defined_partial, C12_differences_alias, C13_fourier_pair, C14_convolution_matrix_of_real_pattern, C15_errors, C15_real_space_is_fourier_series, C16_block_and_split_are_inverse, C16_block_is_fromBlocks, C16_block_shapes, C17_pointwise_inverse, C17_tensor_inverse, C18_kmatrix, C19_constant_pattern_operators, C19_constant_pattern_results_partial, C19_constant_tensor_operators, C20_uniform_modes, C21_patterned_modes, C22_get_S_matrix, C22_scattering_matrix_solves_stack, C23_get_S_matrix, C23_partial_scattering_matrices_compose, C24_get_S_matrix, C24_zero_thickness_layer_is_transparent, C25_get_S_matrix, C25_splitting_a_layer_changes_nothing, C26_fields_are_the_incident_wave, C26_homogeneous_stack_does_not_reflect, C26_nothing_is_reflected, C26_results_are_returned, C27_calls_do_not_depend_on_history, C27_leftovers_in_layers_do_not_matter, C28_reset_makes_edits_visible_partial, C28_superstrate_edits_are_not_refreshed, C28_thickness_edits_need_only_reset_S, C28_without_reset_edits_are_ignored, C29_fields_are_continuous, C30_fields_satisfy_maxwell, C31_flux_is_poynting_flux, C31_flux_of_the_fields, C32_energy_conservation, C33_passivity, C34_complex_amplitudes_match_efficiencies, C34_other_names_raise, C35_totals_are_sums_over_orders, C36_copies_are_interchangeable_partial, C36_copies_that_cannot_be_solved, C36_material_of_a_copy_is_ignored, C36_material_of_a_copy_is_ignored_case, C37_layer_lookup, C38_constructor_raises, C38_constructor_validates, C39_active_backend_is_installed, C39_set_backend, C40_device_and_precision_partial, C40_gpu_stays_with_numpy, C41_environment_variable, C42_one_handler, C42_reload_resets_level, C42_user_handler_duplicates_messages, C43_empty_grid, C43_shape_mask, C44_bad_lattices, C44_circle, C44_ellipse, C44_geometry_mask, C44_grid, C44_no_shapes_in_1d, C44_polygon, C44_rectangle, C44_square, C44_stripe, C45_pairs, C46_result_is_refined, C46_terminates, C47_parloop, C47_same_for_every_schedule, C48_bad_calls_raise, C48_outer_iterations, C48_point_and_value_partial, C48_stopped_at_first_evaluation_raises, C48_stopped_early_point_and_value_disagree, C49_multi_project, C49_project, C49_simp, C49_two_levels, C50_multi_simp_interpolates, C50_zero_exponent_raises, C51_constants_are_amplified, C51_filter_partial, C51_linear, C51_single_row, C51_translation, C51_weighted_average, C51_zero_radius, C52_jones_ellipse, C52_jones_field, C52_jones_vectors, C52_linear_polarisation, C52_normalised_vectors, C53_material_classification, C54_default_shape, C54_one_field, C54_other_outcomes, C54_selection, C54_wrong_names, C55_diagonal_interfaces_partial, C55_equal_moduli_partial, C55_exchanged_projector, C55_exchanged_projector_any, C55_lamellae_exchanged, C55_one_dimensional, C55_square_nine, C56_axes_are_exchanged, C56_returned_fields, C56_transversely_isotropic_partial, C57_circular_truncation_keeps_longer_vector, C57_circular_truncation_keeps_smallest_partial, C57_hexagonal_shell_is_split, C58_another_eigensolver_returns_the_same, C58_results_do_not_depend_on_the_eigensolver, C59_grid_is_not_the_pixel_grid, C59_within_one_pixel_partial, C60_filter_displaces, C60_symmetric_patterns_partial, C61_interfaces, C61_stress_tensor, C61_uniform_layers, C62_normal_stress, C62_normal_stress_original_partial, C62_normal_stress_varies, C63_unit_of_length, C64_lateral_displacement, C64_lateral_displacement_default, C64_lateral_displacement_fft, C64_lateral_displacement_opt, C65_orders_retained, C65_rotation_partial, C65_tangent_depends_on_orientation, C65_truncation_depends_on_orientation, C66_angles, C66_reflection, C67_listing_of_orders, C68_copy, C68_layer_construction, C68_layer_reset, C68_reset_layers_then_simulation, C68_two_unnamed_copies_are_refused, C69_other_simulations_overwrite_the_modes, C69_reset_after_sharing, C69_same_settings, C69_shared_layers_partial, C70_absorbing_inclusions_are_not_seen, C70_displacement_fails_at_border, C70_displacement_partial, C70_exchange_of_materials, C70_lamellae, C70_smoothing, C70_vectors, C70_weak_patterns, C71_accepted_patterns_get_vectors, C71_generator_names, C71_layers, C71_shapes, C72_field_reciprocity, C72_reflection_reciprocity, C73_field_reciprocity, C73_jones_is_not_reciprocal, C73_transmission_reciprocity, C74_defined, C74_efficiencies_of_polarisation, C74_fields_defined, C74_fields_of_polarisation, C74_total_defined, C74_total_efficiencies_of_polarisation, C74_unpolarised_light, C75_absorption, C75_absorption_pixels, C75_poynting_theorem, C75_poynting_theorem_pixels, C76_unit_cell, C77_specular_order, C77_total, C78_gratings, C78_jones_mixes_polarisations, C78_no_interference, C78_no_interference_total, C78_opposite_orders, C78_orders_in_pairs, C78_polarisations_do_not_mix, C78_reflected_wave, C79_energy_magnetic_superstrate, C79_magnetic_continuity, C79_magnetic_energy_partial, C79_magnetic_maxwell_partial, C79_magnetic_passive, C79_negative_index, C79_normal_field_is_induction, C79_returned_fields_fail, C80_airy, C80_brewster, C80_fields, C80_fresnel, C80_half_wave, C80_planar_defined, C80_planar_stack, C80_quarter_wave, C80_total_reflection, C81_gratings, C81_supercell, C82_lamellar, C83_structure, C84_superstrate_thickness, C85_absorbing_results_defined, C86_fft_vectors, C86_mixed_signs_fail, C86_opt_vectors, C86_solve_succeeds, C86_solve_succeeds_any_formulation, C87_thickness_derivatives, C88_isolated_failures, C89_fields, C89_order_efficiencies, C89_total_efficiencies, C90_reflected_orders, C90_transmitted_orders, C91_rectangular_pattern_cut, C91_structure_picture_partial, C92_cell_outside_axes, C92_layer_picture_partial, C92_unit_cell_outline, C93_coefficients_decide, C93_homogeneous_any_formulation, C93_single_order, C94_thin_layer, C94_thin_layer_fields, C95_constant_vectors_partial, C95_constant_vectors_used_partial, C95_energy_created, C95_square_nine, C96_flux_conservation, C96_flux_passive, C97_scattering_matrix_missing_at_guided_waves, C98_field_missing_above_plasmon, C98_otto_counterexample, C98_results_without_guided_waves_partial, C99_grad, Examples.C109_negative_efficiencies, Examples.C19_amplifying_substrate, Examples.C55_formulations_disagree, Examples.C56_crystal, backend_names, config_refines, harmonics_distinct

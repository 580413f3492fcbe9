{"id": "C01", "title": "PlaneWave is a transverse unit plane wave", "statement": "For PlaneWave(wavelength, (theta,phi,psi)): the norm of `wavevector` is 2*pi/wavelength, `amplitude` has unit norm, and `amplitude` is orthogonal to `wavevector`.", "quantifier": "every non-zero wavelength and every triple of angles in degrees", "why_tests_cant": "The claim ranges over a continuum of inputs; a test samples finitely many points.", "anchors": ["nannos/excitation.py:PlaneWave.__init__"]}
{"id": "C02", "title": "PlaneWave modal amplitudes reproduce the polarisation", "statement": "Whenever construction succeeds (it fails exactly at grazing incidence cos(theta)=0), the modal amplitude `a0` is the magnetic amplitude whose tangential electric field is exactly (-amplitude_y, amplitude_x), and the incident wave carries flux cos(theta).", "quantifier": "every positive wavelength, every angle triple with cos(theta)>0 (and the failing set cos(theta)=0)", "why_tests_cant": "The claim ranges over a continuum of inputs; a test samples finitely many points.", "anchors": ["nannos/excitation.py:PlaneWave.__init__"]}
{"id": "C03", "title": "Reciprocal lattice is dual to the direct lattice", "statement": "The columns K1,K2 of `Lattice.reciprocal` satisfy K_i . L_j = 2*pi*delta_ij for the basis vectors L_j; the property raises exactly when the basis vectors are linearly dependent. For mono-periodic lattices the first reciprocal vector is (2*pi/a, 0).", "quantifier": "every pair of real basis vectors, every 1D period", "why_tests_cant": "The claim ranges over a continuum of inputs; a test samples finitely many points.", "anchors": ["nannos/lattice.py:Lattice.matrix", "nannos/lattice.py:Lattice.reciprocal"]}
{"id": "C04", "title": "All harmonics share one Bloch phase", "statement": "The transverse wavevectors (kx,ky) a Simulation assigns to its harmonics all acquire the same phase factor exp(i k.L) across every lattice translation L.", "quantifier": "every non-degenerate lattice, every incident wavevector, every list of integer harmonics, every integer combination of basis vectors", "why_tests_cant": "The claim ranges over a continuum of inputs; a test samples finitely many points.", "anchors": ["nannos/simulation.py:Simulation.__init__", "nannos/lattice.py:Lattice.reciprocal"]}
{"id": "C05", "title": "Mono-periodic truncation", "statement": "For a 1D lattice get_harmonics(nh) returns exactly the orders (-n,0)..(n,0), each once, with n=int((nh-1)/2); the returned count equals the number of harmonics, is odd, and does not exceed nh when nh>=1; with sort=True they are in increasing order.", "quantifier": "every integer nh", "why_tests_cant": "nh is unbounded.", "anchors": ["nannos/lattice.py:_one_dim_truncation", "nannos/lattice.py:Lattice.get_harmonics"]}
{"id": "C06", "title": "Parallelogrammic truncation", "statement": "get_harmonics(nh) with truncation='parallelogrammic' returns every order (i,j) with |i|,|j|<=M exactly once where 2M+1 is the largest odd number whose square is <= nh; the returned count equals the number of harmonics.", "quantifier": "every integer nh>=1, every lattice, every tie-breaking of the sort; nh=0 is the failing boundary", "why_tests_cant": "nh, the lattice and the unstable sort's tie order are unbounded.", "anchors": ["nannos/lattice.py:_parallelogramic_truncation"]}
{"id": "C07", "title": "Circular truncation returns complete shells", "statement": "get_harmonics(nh) with truncation='circular' returns distinct orders, closed under (i,j)->(-i,-j), whose number is the returned count and is strictly smaller than nh; no candidate order outside the returned set has a smaller or equal (up to the tolerance) truncation metric than one inside it, and it is the largest such set of fewer than nh candidates.", "quantifier": "every integer nh>=1, every non-degenerate lattice, every tie-breaking of the sort", "why_tests_cant": "nh, lattice shape and sort ties are unbounded.", "anchors": ["nannos/lattice.py:_circular_truncation"]}
{"id": "C08", "title": "The zeroth order is always retained", "statement": "The specular order (0,0), which carries the incident wave, is one of the harmonics of every Simulation, so the incident amplitude is placed on it.", "quantifier": "every lattice, truncation and nh>=2", "why_tests_cant": "Failing lattices form an open set that ordinary test lattices (square, rectangular, hexagonal) miss.", "anchors": ["nannos/lattice.py:_circular_truncation", "nannos/simulation.py:Simulation.__init__"]}
{"id": "C09", "title": "Sorting harmonics only reorders them", "statement": "get_harmonics(nh, sort=True) returns the same orders as sort=False, with the same multiplicity and the same count, in non-decreasing first index.", "quantifier": "every lattice, truncation, nh, user-supplied harmonics array and every argsort tie-breaking", "why_tests_cant": "Sort ties and inputs are unbounded.", "anchors": ["nannos/lattice.py:Lattice.get_harmonics"]}
{"id": "C10", "title": "Order lookup is the inverse of the harmonics table", "statement": "get_order_index(order) returns the position of `order` in the harmonics table, raises KeyError exactly when it is not retained, accepts a bare integer exactly for 1D lattices, and get_order(A, order) returns the entry of A at that position.", "quantifier": "every list of distinct harmonics, every order", "why_tests_cant": "The claim ranges over a continuum of inputs; a test samples finitely many points.", "anchors": ["nannos/simulation.py:Simulation.__init__", "nannos/simulation.py:Simulation.get_order_index", "nannos/simulation.py:Simulation.get_order"]}
{"id": "C11", "title": "Efficiencies returned as dictionaries agree with the arrays", "statement": "diffraction_efficiencies(orders=True, return_dict=True) returns dictionaries with Rdict[i][j] and Tdict[i][j] the reflection and transmission of order (i,j), and leaves later calls (get_order, diffraction_efficiencies) unaffected.", "quantifier": "every list of distinct harmonics, every R and T, every later call", "why_tests_cant": "Aliasing between the returned dictionaries and the internal table is a history property.", "anchors": ["nannos/simulation.py:Simulation.diffraction_efficiencies", "nannos/simulation.py:Simulation.get_order_index"]}
{"id": "C12", "title": "Accepted discretisations keep the convolution matrices well defined", "statement": "If Simulation accepts a lattice discretisation for a set of harmonics symmetric under inversion, every Fourier coefficient the convolution matrices need is inside the FFT table (no IndexError), a constant pattern c gives exactly c times the identity, and distinct frequency differences are read from distinct FFT bins.", "quantifier": "every discretisation and harmonics list accepted by the constructor", "why_tests_cant": "Sizes unbounded; boundary discretisations are easily missed.", "anchors": ["nannos/simulation.py:Simulation.__init__", "nannos/simulation.py:Simulation._get_toeplitz_matrix"]}
{"id": "C13", "title": "Fourier transform pair", "statement": "inverse_fourier_transform(fourier_transform(u)) = u and fourier_transform(inverse_fourier_transform(U)) = U; fourier_transform(u)[0,0] is the mean of u.", "quantifier": "every grid size Nx,Ny>=1 and every complex grid", "why_tests_cant": "Sizes and values unbounded.", "anchors": ["nannos/formulations/fft.py:fourier_transform", "nannos/formulations/fft.py:inverse_fourier_transform"]}
{"id": "C14", "title": "Convolution matrices of real patterns are Hermitian", "statement": "For a real-valued pattern the convolution (Toeplitz) matrix is Hermitian, its diagonal is the mean of the pattern, and it depends linearly on the pattern.", "quantifier": "every grid, every harmonics list for which the matrix is defined", "why_tests_cant": "Sizes and values unbounded.", "anchors": ["nannos/simulation.py:Simulation._get_toeplitz_matrix", "nannos/formulations/fft.py:fourier_transform"]}
{"id": "C15", "title": "Real-space reconstruction is the Fourier series", "statement": "get_ifft(u, shape) evaluated at pixel (x,y) is sum_i u_i exp(2 pi i (h_i x/Nx + l_i y/Ny)); get_epsilon of a patterned layer is the Fourier series of its permittivity truncated to the harmonics, and is exactly the permittivity when the harmonics cover every FFT bin once.", "quantifier": "every shape, coefficients and harmonics list", "why_tests_cant": "Sizes and values unbounded.", "anchors": ["nannos/simulation.py:Simulation.get_ifft", "nannos/simulation.py:Simulation.get_ifft_amplitudes", "nannos/simulation.py:Simulation.get_epsilon"]}
{"id": "C16", "title": "Block assembly and extraction are inverse", "statement": "Splitting block([[A,B],[C,D]]) with block2list(.,n) gives back A,B,C,D, and re-assembling block2list(M,n) gives back M.", "quantifier": "every n and every n-by-n blocks / 2n-by-2n matrix", "why_tests_cant": "Sizes unbounded.", "anchors": ["nannos/utils/helpers.py:block", "nannos/utils/helpers.py:get_block", "nannos/utils/helpers.py:block2list"]}
{"id": "C17", "title": "Pointwise 2x2 block inversion", "statement": "inv2by2block(T,N) is the pointwise inverse: multiplying it with T by blockmatmul (either side) gives the pointwise identity wherever the pointwise determinant does not vanish.", "quantifier": "every N, every block array with non-vanishing pointwise determinant", "why_tests_cant": "Sizes and values unbounded.", "anchors": ["nannos/utils/helpers.py:inv2by2block", "nannos/utils/helpers.py:blockmatmul"]}
{"id": "C18", "title": "K-matrix assembly", "statement": "The einsum implementation of the wave-vector matrices equals [[Kx u Kx, Kx u Ky],[Ky u Kx, Ky u Ky]] for diagonal Kx, Ky.", "quantifier": "every nh, every matrix u, every diagonal Kx, Ky", "why_tests_cant": "Sizes and values unbounded.", "anchors": ["nannos/simulation.py:_build_Kmatrix"]}
{"id": "C19", "title": "A constant pattern behaves like a uniform layer", "statement": "A patterned layer whose permittivity grid is constant gets, in every formulation branch that applies, the same electric operator and an eigenproblem whose solutions are the uniform-layer modes, so both descriptions of the same slab are interchangeable.", "quantifier": "every constant permittivity, grid size, harmonics list accepted, frequency and incidence", "why_tests_cant": "The claim ranges over a continuum of inputs; a test samples finitely many points.", "anchors": ["nannos/simulation.py:Simulation.build_matrix", "nannos/layers.py:Layer.solve_uniform"]}
{"id": "C20", "title": "Uniform layer modes solve Maxwell's equations and do not grow", "statement": "The eigenvalues q and eigenvectors of a uniform layer satisfy q^2 = eps*omega^2 - kx^2 - ky^2 for both polarisations and the same second-order eigenproblem as patterned layers; for passive permittivity and real wavevectors, Re q>=0 and Im q>=0 so no mode grows along propagation.", "quantifier": "every permittivity, frequency, wavevector list", "why_tests_cant": "The claim ranges over a continuum of inputs; a test samples finitely many points.", "anchors": ["nannos/layers.py:Layer.solve_uniform", "nannos/simulation.py:Simulation.build_matrix"]}
{"id": "C21", "title": "Patterned layer modes are decaying or propagating", "statement": "The eigenvalues q of a patterned layer satisfy q^2 = eigenvalue of the layer matrix and Im q>=0, so |exp(i q z)|<=1 for z>=0.", "quantifier": "every matrix and every eigen-decomposition returned by the backend", "why_tests_cant": "The claim ranges over a continuum of inputs; a test samples finitely many points.", "anchors": ["nannos/layers.py:Layer.solve_eigenproblem", "nannos/simulation.py:phasor"]}
{"id": "C22", "title": "The scattering matrix solves the stack", "statement": "When get_S_matrix((i,j)) returns [[S11,S12],[S21,S22]], then for all incoming amplitudes a_i, b_j there is a unique assignment of amplitudes to the layers i..j satisfying tangential-field matching at every interface, and its outgoing amplitudes are a_j=S11 a_i+S12 b_j, b_i=S21 a_i+S22 b_j.", "quantifier": "every number of layers, nh, layer modes and thicknesses for which the computation succeeds", "why_tests_cant": "Unbounded stacks; a test checks only a few stacks through derived scalars.", "anchors": ["nannos/simulation.py:Simulation.get_S_matrix", "nannos/simulation.py:_build_Imatrix", "nannos/simulation.py:_build_Mmatrix"]}
{"id": "C23", "title": "Partial scattering matrices compose", "statement": "The scattering matrix of layers i..k is the star product of those of i..j and j..k for every intermediate j.", "quantifier": "every stack, every i<=j<=k for which they are computed", "why_tests_cant": "Unbounded stacks.", "anchors": ["nannos/simulation.py:Simulation.get_S_matrix"]}
{"id": "C24", "title": "Zero-thickness layers are transparent", "statement": "Inserting a layer of zero thickness (thickness 0 or None) anywhere strictly inside a stack does not change its scattering matrix.", "quantifier": "every stack, every position, every inserted layer for which both computations succeed", "why_tests_cant": "Unbounded stacks.", "anchors": ["nannos/simulation.py:Simulation.get_S_matrix"]}
{"id": "C25", "title": "Splitting a layer changes nothing", "statement": "Replacing a layer of thickness d1+d2 by two layers with the same modes and thicknesses d1 and d2 does not change the scattering matrix of the stack.", "quantifier": "every stack, position, d1 and d2 for which both computations succeed", "why_tests_cant": "Unbounded stacks.", "anchors": ["nannos/simulation.py:Simulation.get_S_matrix", "nannos/simulation.py:phasor"]}
{"id": "C26", "title": "A homogeneous stack does not reflect", "statement": "If all layers share the same modes the stack does not reflect (S12=S21=0) and transmits each mode with the phase accumulated over the total thickness. For a stack of layers of one real positive permittivity results are always returned: every reflected efficiency is zero, the specular order is transmitted with efficiency one and the others with zero, and the fields in every layer are those of the incident plane wave continued.", "quantifier": "every number of layers and thicknesses, permittivity, wavelength, angles, depth, history of calls", "why_tests_cant": "Unbounded stacks.", "anchors": ["nannos/simulation.py:Simulation.get_S_matrix", "nannos/simulation.py:Simulation.diffraction_efficiencies", "nannos/simulation.py:Simulation.get_field_fourier"]}
{"id": "C27", "title": "S-matrix caching is transparent", "statement": "As long as no layer is modified, get_S_matrix returns, after any history of get_S_matrix calls with any indices (including calls that raised), solves and resets, exactly what a fresh Simulation would return.", "quantifier": "every history of calls, every indices, including failing calls", "why_tests_cant": "Histories are unbounded; failures mid-computation leave partial caches.", "anchors": ["nannos/simulation.py:Simulation.get_S_matrix", "nannos/simulation.py:Simulation.reset"]}
{"id": "C28", "title": "reset() makes edits visible", "statement": "After any history of calls and layer edits, reset() (param='all') followed by get_S_matrix returns what a fresh Simulation with the current layers would return; for thickness-only edits reset('S') suffices. Without a reset an edit may be ignored.", "quantifier": "every history of calls and edits", "why_tests_cant": "Histories are unbounded.", "anchors": ["nannos/simulation.py:Simulation.reset", "nannos/simulation.py:Simulation.get_S_matrix"]}
{"id": "C29", "title": "Retrieved fields are continuous across interfaces", "statement": "The tangential Fourier components of E and H returned by get_field_fourier at z=thickness of one layer equal those at z=0 of the next layer; so do H_z and the normal displacement.", "quantifier": "every stack, interface, nh and excitation for which the computation succeeds", "why_tests_cant": "Unbounded stacks.", "anchors": ["nannos/simulation.py:Simulation.get_field_fourier", "nannos/simulation.py:Simulation._get_amplitudes", "nannos/simulation.py:Simulation._solve_int", "nannos/simulation.py:Simulation._solve_ext", "nannos/simulation.py:_translate_amplitudes"]}
{"id": "C30", "title": "Retrieved fields satisfy Maxwell's equations in z", "statement": "Inside each layer the tangential fields returned by get_field_fourier as functions of z satisfy dH/dz = i*omega*(P - Kmu/omega^2) E and dE/dz = (i/omega) (omega^2*mu - Keps) H.", "quantifier": "every layer, z, nh, amplitudes", "why_tests_cant": "The claim ranges over a continuum of inputs; a test samples finitely many points.", "anchors": ["nannos/simulation.py:Simulation.get_field_fourier", "nannos/simulation.py:Simulation.build_matrix"]}
{"id": "C31", "title": "Forward plus backward flux is the Poynting flux", "statement": "For every order, forward+backward returned by get_z_poynting_flux is the real part of conj(E)xH z-component computed from the total tangential fields of that order. With the amplitudes of a layer at a depth these are the fields get_field_fourier returns there, whatever was called before.", "quantifier": "every layer, nh, amplitudes, depth and histories of calls", "why_tests_cant": "The claim ranges over a continuum of inputs; a test samples finitely many points.", "anchors": ["nannos/simulation.py:Simulation.get_z_poynting_flux", "nannos/simulation.py:Simulation.get_field_fourier", "nannos/simulation.py:Simulation._get_amplitudes"]}
{"id": "C32", "title": "Energy conservation", "statement": "For a stack whose superstrate is uniform with real positive permittivity and whose inner layers are lossless (uniform real or patterned real permittivity, 'original' formulation; 'tangent' for 1D), diffraction_efficiencies() returns R and T with R+T=1 whenever it returns.", "quantifier": "every number of layers, nh, thickness, pattern, wavelength, incidence and polarisation", "why_tests_cant": "The claim is an identity over a continuum of structures; tests check it on a few with a 10% tolerance.", "anchors": ["nannos/simulation.py:Simulation.diffraction_efficiencies", "nannos/simulation.py:Simulation.get_z_poynting_flux", "nannos/simulation.py:Simulation.build_matrix", "nannos/excitation.py:PlaneWave"]}
{"id": "C33", "title": "Passivity", "statement": "If the inner layers are passive (non-negative imaginary permittivity) R+T<=1.", "quantifier": "as C32 with passive media", "why_tests_cant": "The claim ranges over a continuum of inputs; a test samples finitely many points.", "anchors": ["nannos/simulation.py:Simulation.diffraction_efficiencies"]}
{"id": "C34", "title": "Complex amplitudes match efficiencies", "statement": "With a real positive superstrate layer named Superstrate, a real uniform substrate layer named Substrate, and thicknesses given for both, diffraction_efficiencies(orders=True, complex=True) returns whenever diffraction_efficiencies(orders=True) does, and |r_j|^2 summed over the three components equals R_j and |t_j|^2 equals T_j for every order j ; in particular R_j, T_j >= 0. With other layer names it raises.", "quantifier": "every order, stack and excitation for which the computation succeeds", "why_tests_cant": "The claim ranges over a continuum of inputs; a test samples finitely many points.", "anchors": ["nannos/simulation.py:Simulation._get_complex_orders", "nannos/simulation.py:Simulation.diffraction_efficiencies"]}
{"id": "C35", "title": "Totals are the sums over orders", "statement": "diffraction_efficiencies(orders=False) returns the sums of what orders=True returns, and repeated calls return the same values.", "quantifier": "every stack, every history of such calls", "why_tests_cant": "Histories unbounded.", "anchors": ["nannos/simulation.py:Simulation.diffraction_efficiencies"]}
{"id": "C36", "title": "Layer copies are interchangeable with independent layers", "statement": "A copy of a layer placed anywhere in the stack gives the same modes as an independent layer with the same material, whatever its thickness and position.", "quantifier": "every stack and every placement of originals and copies", "why_tests_cant": "Orders of originals and copies in a stack are unbounded; failing orders are history dependent.", "anchors": ["nannos/layers.py:Layer.copy", "nannos/layers.py:Layer.solve_eigenproblem", "nannos/simulation.py:Simulation.build_matrix", "nannos/simulation.py:Simulation.solve"]}
{"id": "C37", "title": "Layer lookup", "statement": "get_layer(name) returns the unique layer with that name and its index, get_layer(i) the i-th layer (Python indexing), get_layer(layer) the stack layer of that name; unknown names and wrong types raise ValueError.", "quantifier": "every list of layers with distinct names, every id", "why_tests_cant": "The claim ranges over a continuum of inputs; a test samples finitely many points.", "anchors": ["nannos/layers.py:_get_layer", "nannos/simulation.py:Simulation.get_layer"]}
{"id": "C38", "title": "Constructor validation", "statement": "Simulation(...) accepts only stacks with pairwise distinct layer names, a common lattice, a known formulation compatible with the lattice, and a discretisation above twice the largest harmonic; otherwise it raises.", "quantifier": "every constructor argument", "why_tests_cant": "The claim ranges over a continuum of inputs; a test samples finitely many points.", "anchors": ["nannos/simulation.py:Simulation.__init__", "nannos/utils/helpers.py:unique"]}
{"id": "C39", "title": "Backend selection", "statement": "After set_backend(b) with an installed backend b, get_backend() and BACKEND are b whatever was called before; an unknown name raises ValueError and changes nothing; a missing backend falls back to numpy; exactly one backend is active.", "quantifier": "every history of set_backend/use_gpu/use_32_bit calls, every environment", "why_tests_cant": "Histories unbounded.", "anchors": ["nannos/__init__.py:set_backend", "nannos/__init__.py:get_backend", "nannos/__init__.py:_reload_package"]}
{"id": "C40", "title": "Device and precision selection", "statement": "The device is 'cuda' only if the active backend can use a GPU; use_gpu(False) always selects the CPU; use_32_bit(b) selects single precision exactly when b is true, and neither is changed by switching backends.", "quantifier": "every history of calls", "why_tests_cant": "Histories unbounded.", "anchors": ["nannos/__init__.py:use_gpu", "nannos/__init__.py:get_device", "nannos/__init__.py:use_32_bit", "nannos/__init__.py:get_types"]}
{"id": "C41", "title": "Explicit backend choice beats the environment variable", "statement": "NANNOS_BACKEND selects the backend at import, and no later package reload lets it override an explicit set_backend call.", "quantifier": "every environment value and every history of calls", "why_tests_cant": "Histories unbounded.", "anchors": ["nannos/__init__.py"]}
{"id": "C42", "title": "Logging is configured once", "statement": "After any sequence of set_log_level calls (and package reloads) the nannos logger has exactly one nannos handler at the last level, so messages are not duplicated; an unknown level raises KeyError without changing anything.", "quantifier": "every history of set_log_level calls", "why_tests_cant": "Histories unbounded.", "anchors": ["nannos/log.py:set_log_level"]}
{"id": "C43", "title": "Shape rasterisation", "statement": "shape_mask(shape, x, y)[j,i] tells whether the point (x[i], y[j]) is in the shape: it is True for every interior point and False for every point outside the closed shape, and the recursion terminates.", "quantifier": "every shape with consistent contains/intersects predicates, every increasing non-empty grid", "why_tests_cant": "Grid sizes and shapes unbounded.", "anchors": ["nannos/geometry.py:shape_mask"]}
{"id": "C44", "title": "Masks live on the lattice grid", "statement": "geometry_mask(geom, lattice, Nx, Ny)[i,j] tells whether the lattice grid point grid[:,i,j] lies in the geometry, for oblique lattices too.", "quantifier": "every non-degenerate lattice, geometry, grid size", "why_tests_cant": "The claim ranges over a continuum of inputs; a test samples finitely many points.", "anchors": ["nannos/geometry.py:geometry_mask", "nannos/lattice.py:Lattice.grid", "nannos/lattice.py:Lattice.transform"]}
{"id": "C45", "title": "Adaptive sampling pairs abscissae and values", "statement": "adaptive_sampler(f, x) returns arrays with y[i]=f(x[i]) for every i; every initial abscissa is kept, every added one lies strictly inside the initial range, and the result is strictly increasing once refined.", "quantifier": "every function f, every list of distinct initial abscissae, every parameter, any number of refinement rounds", "why_tests_cant": "f, x and number of rounds unbounded.", "anchors": ["nannos/sample.py:adaptive_sampler"]}
{"id": "C46", "title": "Adaptive sampling terminates", "statement": "adaptive_sampler terminates for every f when max_x_rel>0: it only splits intervals no shorter than max_x_rel times the range, so the number of points is bounded independently of f.", "quantifier": "every function f, every strictly increasing initial abscissae, every positive max_x_rel", "why_tests_cant": "Termination for every f cannot be tested.", "anchors": ["nannos/sample.py:adaptive_sampler"]}
{"id": "C47", "title": "parloop preserves order", "statement": "A function decorated with parloop(n_jobs) applied to a list returns the list of results in input order, the same for every n_jobs and every completion order of the workers.", "quantifier": "every function, list, n_jobs and schedule", "why_tests_cant": "Schedules unbounded.", "anchors": ["nannos/parallel.py:parloop"]}
{"id": "C48", "title": "Optimiser returns a point and its value", "statement": "TopologyOptimizer.minimize returns (xopt, fopt) with fopt the objective at xopt, also when stopped early by stopval; each outer iteration starts from the previous result and uses projection level 2**iopt.", "quantifier": "every objective, every sequence of points queried by the inner optimiser, every stopval", "why_tests_cant": "Histories unbounded.", "anchors": ["nannos/optimize.py:TopologyOptimizer.minimize", "nannos/optimize.py:StopFun.fun"]}
{"id": "C49", "title": "Projection and SIMP interpolation", "statement": "simp maps 0 to eps_min and 1 to eps_max; project maps [0,1] into [0,1], fixes 0 and 1, and is strictly increasing for beta>0 and any threshold in [0,1]; multi_project has the same properties for every Nthres>=2.", "quantifier": "every x, beta>0, threshold, Nthres", "why_tests_cant": "The claim ranges over a continuum of inputs; a test samples finitely many points.", "anchors": ["nannos/optimize.py:simp", "nannos/optimize.py:project", "nannos/optimize.py:multi_project"]}
{"id": "C50", "title": "Multi-material SIMP interpolates the materials", "statement": "multi_simp(x, epsilons, p) equals epsilons[i] at x=i/(n-1) for every i.", "quantifier": "every list of at least two permittivities and every p>0", "why_tests_cant": "List length and p unbounded.", "anchors": ["nannos/optimize.py:multi_simp"]}
{"id": "C51", "title": "Density filter", "statement": "apply_filter is linear and translation equivariant, leaves x unchanged for rfilt=0, and preserves constants.", "quantifier": "every grid size, grid and radius", "why_tests_cant": "Sizes and values unbounded.", "anchors": ["nannos/utils/helpers.py:_apply_filter"]}
{"id": "C52", "title": "Tangent and Jones fields are normalised", "statement": "Normalised tangent vectors have norm at most one and are (1,0) where the raw vector is below threshold; Jones vectors have the norm of the underlying tangent vector divided by its regularised norm, for every vector.", "quantifier": "every vector field", "why_tests_cant": "The claim ranges over a continuum of inputs; a test samples finitely many points.", "anchors": ["nannos/formulations/tangent.py:_normalize_vec", "nannos/formulations/jones.py:get_jones_field", "nannos/utils/helpers.py:norm"]}
{"id": "C53", "title": "Material classification", "statement": "is_uniform and is_anisotropic classify a material by its data: scalars are uniform isotropic, (3,3) arrays uniform anisotropic, (3,3,Nx,Ny) patterned anisotropic, (Nx,Ny) grids patterned isotropic (except a grid of exactly 3 by 3 pixels, which cannot be told from a tensor).", "quantifier": "every array shape", "why_tests_cant": "Shapes unbounded.", "anchors": ["nannos/utils/helpers.py:is_uniform", "nannos/utils/helpers.py:is_anisotropic", "nannos/layers.py:Layer.is_uniform"]}
{"id": "C54", "title": "Field component selection", "statement": "get_field_grid(field=F, component=c) returns exactly the selected part of what get_field_grid() returns; invalid names raise ValueError.", "quantifier": "every field and component argument, every fields", "why_tests_cant": "The claim ranges over a continuum of inputs; a test samples finitely many points.", "anchors": ["nannos/simulation.py:Simulation.get_field_grid"]}
{"id": "C55", "title": "2D tangent formulation agrees with the 1D one on lamellar gratings", "statement": "For a lamellar grating described on a bi-periodic lattice with tangent field along the lamellae, the 'tangent' formulation uses the same electric operator as the 1D 'tangent' formulation: direct rule for the field along the lamellae, inverse rule across.", "quantifier": "every lamellar pattern and harmonics list", "why_tests_cant": "The claim ranges over a continuum of inputs; a test samples finitely many points.", "anchors": ["nannos/simulation.py:Simulation._get_Peps", "nannos/simulation.py:Simulation.build_matrix"]}
{"id": "C56", "title": "Anisotropic axes", "statement": "In an anisotropic patterned layer, a field along y experiences eps_yy and a field along x experiences eps_xx.", "quantifier": "every anisotropic permittivity", "why_tests_cant": "The claim ranges over a continuum of inputs; a test samples finitely many points.", "anchors": ["nannos/simulation.py:Simulation.build_matrix", "nannos/simulation.py:Simulation._get_toeplitz_matrix"]}
{"id": "C57", "title": "Circular truncation keeps the smallest wavevectors", "statement": "get_harmonics(nh) with truncation='circular' keeps the reciprocal lattice vectors of smallest length: every candidate order left out has a longer vector i*K1+j*K2 than every order kept, so equally long vectors are kept or dropped together.", "quantifier": "every non-degenerate lattice and nh>=1", "why_tests_cant": "The claim ranges over a continuum of inputs; a test samples finitely many points.", "anchors": ["nannos/lattice.py:Lattice._circular_truncation", "nannos/lattice.py:Lattice.get_harmonics"]}
{"id": "C58", "title": "Results do not depend on the choice of eigenvectors", "statement": "Diffraction efficiencies and fields do not depend on which solution the eigensolver returns: scaling or reordering eigenvectors, or choosing another basis of a degenerate eigenspace, leaves every returned number unchanged; and a solver that returns independent eigenvectors whenever another does lets every computation succeed that succeeds with the other.", "quantifier": "every pair of eigensolvers returning eigenpairs, every stack, excitation and pair of call histories", "why_tests_cant": "The claim ranges over a continuum of inputs; a test samples finitely many points.", "anchors": ["nannos/layers.py:Layer.solve_eigenproblem", "nannos/simulation.py:Simulation.diffraction_efficiencies", "nannos/simulation.py:Simulation.get_field_fourier"]}
{"id": "C59", "title": "The lattice grid is the pixel grid", "statement": "The points lattice.grid[:,i,j], on which masks are drawn, are the points at which the Fourier transforms and the fields on a grid place pixel (i,j).", "quantifier": "every lattice, discretisation and pixel", "why_tests_cant": "The claim ranges over a continuum of inputs; a test samples finitely many points.", "anchors": ["nannos/lattice.py:Lattice.unit_grid", "nannos/simulation.py:Simulation.get_ifft", "nannos/utils/helpers.py"]}
{"id": "C60", "title": "The density filter does not move the pattern", "statement": "apply_filter keeps a pattern where it is: a pattern symmetric about a pixel is mapped to a pattern symmetric about the same pixel.", "quantifier": "every pattern, grid size, radius", "why_tests_cant": "The claim ranges over a continuum of inputs; a test samples finitely many points.", "anchors": ["nannos/utils/helpers.py:_apply_filter"]}
{"id": "C61", "title": "Stress tensor", "statement": "get_z_stress_tensor_integral(layer, z) returns the xz, yz, zz components of Maxwell's stress tensor of the fields returned by get_field_fourier at that depth. The lateral components are the momentum carried by the orders: minus the sum over orders of k/omega times the energy flux of the order. They are the same on both sides of an interface, and in a uniform layer of real permittivity nothing depends on z.", "quantifier": "every stack, formulation, number of harmonics, call history, layer and depth; superstrate of real positive permittivity", "why_tests_cant": "The claim ranges over a continuum of inputs; a test samples finitely many points.", "anchors": ["nannos/simulation.py:get_z_stress_tensor_integral"]}
{"id": "C62", "title": "Normal stress in lossless layers", "statement": "In a lossless layer, which is invariant along z, the zz component returned by get_z_stress_tensor_integral does not depend on z: there is no net force on a slice of the layer other than at its faces.", "quantifier": "every lossless stack, formulation, call history, layer and pair of depths", "why_tests_cant": "The claim ranges over a continuum of inputs; a test samples finitely many points.", "anchors": ["nannos/simulation.py:get_z_stress_tensor_integral", "nannos/simulation.py:build_matrix"]}
{"id": "C63", "title": "Unit of length", "statement": "Only ratios of lengths matter: multiplying the wavelength, the lattice vectors and all thicknesses by one positive factor leaves every efficiency unchanged, and the fields at depths multiplied by the same factor.", "quantifier": "every stack, formulation, excitation, positive factor, pair of call histories", "why_tests_cant": "The claim ranges over a continuum of inputs; a test samples finitely many points.", "anchors": ["nannos/simulation.py:Simulation.__init__", "nannos/simulation.py:Simulation.diffraction_efficiencies", "nannos/excitation.py:PlaneWave"]}
{"id": "C64", "title": "Lateral displacement", "statement": "Displacing the patterns of all layers together, by whole pixels, changes no efficiency; the amplitude of order (g1,g2) of every field is multiplied by exp(-2 pi i (g1 u + g2 v)), where (u,v) is the displacement in periods.", "quantifier": "every stack, formulation, displacement, pair of call histories; generated tangent fields must move with the pattern; arrays of tensors square (C108) outside the formulation original", "why_tests_cant": "The claim ranges over a continuum of inputs; a test samples finitely many points.", "anchors": ["nannos/simulation.py:Simulation._get_toeplitz_matrix", "nannos/simulation.py:Simulation.build_matrix", "nannos/utils/helpers.py"]}
{"id": "C65", "title": "Rotation", "statement": "Turning the lattice of a bi-periodic structure, its tensors, the tangent vectors which the user gave and the azimuth of the wave by the same angle changes no efficiency, and turns the fields.", "quantifier": "every lattice, angle, stack, formulation, truncation and excitation", "why_tests_cant": "The claim ranges over a continuum of inputs; a test samples finitely many points.", "anchors": ["nannos/lattice.py:Lattice._circular_truncation", "nannos/simulation.py:Simulation._get_Peps", "nannos/simulation.py:Simulation.__init__"]}
{"id": "C66", "title": "Reflection", "statement": "Reflecting the patterns of all layers in a coordinate axis of a rectangular lattice, or turning them by half a turn on any lattice, together with the wave, exchanges the efficiencies of the orders accordingly and reflects the fields.", "quantifier": "every stack, formulation (jones: half turns only), excitation, pair of call histories; arrays of tensors square (C108) outside the formulation original", "why_tests_cant": "The claim ranges over a continuum of inputs; a test samples finitely many points.", "anchors": ["nannos/lattice.py:Lattice.get_harmonics", "nannos/simulation.py:Simulation.build_matrix"]}
{"id": "C67", "title": "Listing of the orders", "statement": "Results do not depend on the order in which the retained orders are listed: not on how the sort breaks ties, nor on the order of the columns of a harmonics array given by the user.", "quantifier": "every stack, formulation, excitation, pair of sorts, permutation of the orders, pair of call histories", "why_tests_cant": "The claim ranges over a continuum of inputs; a test samples finitely many points.", "anchors": ["nannos/lattice.py:Lattice.get_harmonics", "nannos/simulation.py:Simulation.__init__"]}
{"id": "C68", "title": "Layer objects: construction, copies, reset", "statement": "Layer(...) succeeds exactly when the thickness is None or not negative and the permeability is the number one, and keeps its arguments: a negative thickness raises ValueError, another permeability NotImplementedError; the permittivity is not examined. copy() returns a layer with the same material, thickness and tangent vectors, the given name or that of the original with ' (copy)', which refers to its original; two unnamed copies of one layer cannot be in one stack. Layer.reset(p) forgets the modes, the matrix, or both, and nothing for other names; after resetting every layer and the simulation, results are those of a new simulation.", "quantifier": "every argument, layer, number of copies and call history", "why_tests_cant": "Histories and arguments are unbounded.", "anchors": ["nannos/layers.py:Layer.__init__", "nannos/layers.py:Layer.copy", "nannos/layers.py:Layer.reset"]}
{"id": "C69", "title": "Layers shared by several simulations", "statement": "A layer object may be used in several simulations: what one simulation returns does not depend on the calls made on the others.", "quantifier": "every set of simulations on common layers and every interleaving of calls", "why_tests_cant": "Interleavings are unbounded.", "anchors": ["nannos/layers.py:Layer.solve_uniform", "nannos/layers.py:Layer.solve_eigenproblem", "nannos/simulation.py:Simulation.solve"]}
{"id": "C70", "title": "Generated tangent vectors ('fft')", "statement": "The tangent-field generator 'fft' accepts every pattern with at least one pixel and returns real vectors, one per pixel, not longer than one. They follow the interfaces: for lamellae along an axis they point along that axis; exchanging the two materials leaves the projectors unchanged; displacing the pattern displaces the vectors; every material contrast, including one of absorption only, is seen.", "quantifier": "every pattern, grid size, displacement by whole pixels", "why_tests_cant": "The claim ranges over a continuum of inputs; a test samples finitely many points.", "anchors": ["nannos/formulations/tangent.py:_get_tangent_field_fft", "nannos/formulations/tangent.py:get_tangent_field", "nannos/layers.py:Layer.get_tangent_field"]}
{"id": "C71", "title": "Patterns accepted by the default generator ('opt')", "statement": "The default tangent-field generator 'opt' accepts patterns of every size with at least two pixels per axis and every list of orders the simulation accepts.", "quantifier": "every pattern size and list of orders; every simulation and call history", "why_tests_cant": "The claim ranges over a continuum of inputs; a test samples finitely many points.", "anchors": ["nannos/formulations/tangent.py:_get_tangent_field_min", "nannos/layers.py:Layer.get_tangent_field", "nannos/simulation.py:Simulation.build_matrix"]}
{"id": "C72", "title": "Reciprocity in reflection", "statement": "For reciprocal materials (scalar or symmetric permittivity, absorbing or amplifying too), permeability one, and the formulation 'original', or a mono-periodic lattice, or the formulations 'tangent' and 'pol' with isotropic patterns and one given real tangent vector for each patterned layer: the specular reflection of unpolarised light is the same for a wave and for the wave coming back along its reflection (azimuth turned by 180 degrees). The specular electric field of the first wave against the polarisation of the second equals that of the second against the polarisation of the first, at every depth of the first layer.", "quantifier": "every stack and pattern, wavelength, angle, pair of polarisations, number of orders, depth, pair of call histories", "why_tests_cant": "The claim ranges over a continuum of inputs; a test samples finitely many points.", "anchors": ["nannos/simulation.py:Simulation.diffraction_efficiencies", "nannos/simulation.py:Simulation.get_field_fourier", "nannos/simulation.py:Simulation.get_S_matrix", "nannos/excitation.py:PlaneWave"]}
{"id": "C73", "title": "Reciprocity in transmission", "statement": "Under the same conditions: the specular transmission of unpolarised light through a stack is the same in both directions, from the front and from the back (the reversed list of layers), for waves with opposite tangential wave vectors, with absorbing layers too. The specular electric fields behind the stack satisfy the same exchange relation, polarisation by polarisation.", "quantifier": "every stack and pattern, wavelength, pair of angles related by Snell's law, pair of polarisations, number of orders, pair of call histories", "why_tests_cant": "The claim ranges over a continuum of inputs; a test samples finitely many points.", "anchors": ["nannos/simulation.py:Simulation.diffraction_efficiencies", "nannos/simulation.py:Simulation.get_field_fourier", "nannos/simulation.py:Simulation.get_S_matrix", "nannos/excitation.py:PlaneWave"]}
{"id": "C74", "title": "Polarisation", "statement": "With the direction and the wavelength fixed, the efficiencies of every order and the totals depend on the polarisation angle as a quadratic form of its cosine and sine, so three runs (0, 45 and 90 degrees) determine them all; the average over two orthogonal polarisations (unpolarised light) does not depend on the pair. The fields of every layer, depth and order are the superposition, with the cosine and the sine, of those of the runs at 0 and 90 degrees.", "quantifier": "every stack, formulation, lattice, wavelength, direction, polarisation, order, layer, depth, and every set of call histories", "why_tests_cant": "The claim ranges over a continuum of inputs; a test samples finitely many points.", "anchors": ["nannos/excitation.py:PlaneWave", "nannos/simulation.py:Simulation.diffraction_efficiencies", "nannos/simulation.py:Simulation.get_field_fourier", "nannos/simulation.py:Simulation.get_z_poynting_flux"]}
{"id": "C75", "title": "Absorption", "statement": "Poynting's theorem holds for the returned fields: in every layer the flux lost between two depths is omega times the integral of Im(conj(E).D) over the depths between, with the permittivity operators of the formulation. What is neither reflected nor transmitted, 1 - R - T, is the sum of these integrals over the layers between the first and the last one, with the factor of the incident flux. In the formulation 'original' with isotropic materials, Im(conj(E).D) is the mean over the pixels of the imaginary part of the permittivity times the squared field in real space.", "quantifier": "every stack with a lossless superstrate, absorbing layers included, wavelength, angles, number of orders, pair of depths, and every pair of call histories", "why_tests_cant": "The claim ranges over a continuum of inputs; a test samples finitely many points.", "anchors": ["nannos/simulation.py:Simulation.get_field_fourier", "nannos/simulation.py:Simulation.diffraction_efficiencies", "nannos/simulation.py:Simulation.get_z_poynting_flux"]}
{"id": "C76", "title": "Choice of the unit cell, axes and origin", "statement": "The numbers describe the structure, not its description: with other lattice vectors for the same lattice, another origin and other (turned or reflected) axes, the wave being turned along and the same orders being retained, every order has the same efficiencies and the fields are turned, with the phase of the displacement. Isotropic materials, formulation 'original'.", "quantifier": "every lattice, unimodular change of basis, orthogonal matrix, displacement, stack, excitation, pair of call histories", "why_tests_cant": "The claim ranges over a continuum of inputs; a test samples finitely many points.", "anchors": ["nannos/lattice.py:Lattice.reciprocal", "nannos/simulation.py:Simulation.__init__", "nannos/simulation.py:Simulation._get_toeplitz_matrix", "nannos/simulation.py:Simulation.diffraction_efficiencies"]}
{"id": "C77", "title": "Rotation symmetry at normal incidence", "statement": "On a structure unchanged by a rotation other than a half turn (a square or hexagonal array, for instance), with isotropic materials and the formulation 'original', specular and total efficiencies at normal incidence do not depend on the azimuth and polarisation angles.", "quantifier": "every symmetric structure, angle of rotation, wavelength, pair of polarisations and azimuths, pair of call histories", "why_tests_cant": "The claim ranges over a continuum of inputs; a test samples finitely many points.", "anchors": ["nannos/excitation.py:PlaneWave", "nannos/simulation.py:Simulation.diffraction_efficiencies"]}
{"id": "C78", "title": "Mirror symmetry and separation of polarisations", "statement": "When the plane of incidence is a mirror plane of the structure, the two polarisations (0 and 90 degrees) do not mix: in the orders of that plane the fields of the first have E in the plane and H along its normal, those of the second the converse; the efficiencies for other polarisation angles are the averages with cos^2 and sin^2, in these orders and in total; orders on either side of the plane have equal efficiencies. This holds for every order of a mono-periodic grating at azimuth 0. On a structure unchanged by half a turn, opposite orders have equal efficiencies at normal incidence. The formulation jones does not respect mirror planes: on some symmetric lossless structure it turns half of the transmitted power into the other polarisation.", "quantifier": "every symmetric stack, formulation (jones: half turns only), wavelength, angle, order, layer, depth, call histories; arrays of tensors square (C108) outside the formulation original", "why_tests_cant": "The claim ranges over a continuum of inputs; a test samples finitely many points.", "anchors": ["nannos/simulation.py:Simulation.diffraction_efficiencies", "nannos/simulation.py:Simulation.get_field_fourier", "nannos/excitation.py:PlaneWave", "nannos/lattice.py:Lattice.get_harmonics"]}
{"id": "C80", "title": "Planar stacks: Fresnel and Airy", "statement": "For a stack of homogeneous layers below a lossless superstrate the results are those of textbooks: the polarisations do not mix, only the specular order carries power, and the amplitudes are the only ones with continuous tangential fields at every interface. One interface gives Fresnel's formulas, one layer Airy's. Beyond the critical angle everything is reflected; at Brewster's angle nothing is; a half-wave layer drops out and a quarter-wave layer with the geometric mean of the permittivities suppresses reflection. The fields returned in each layer are those of the two polarisations. For passive layers a result is always returned unless a permittivity vanishes or the wave grazes a layer.", "quantifier": "every stack of homogeneous layers, thickness, complex permittivity, wavelength, angles, call history", "why_tests_cant": "The claim ranges over a continuum of inputs; a test samples finitely many points.", "anchors": ["nannos/layers.py:Layer.solve_uniform", "nannos/simulation.py:Simulation.get_S_matrix", "nannos/simulation.py:Simulation.diffraction_efficiencies", "nannos/excitation.py:PlaneWave"]}
{"id": "C79", "title": "Magnetic layers", "statement": "Layers whose permeability has been set obey Maxwell's equations with that permeability: the fields returned by get_field_fourier satisfy them in the layer, tangential E and H and normal B and D are continuous, the efficiencies add up to 1 without losses, to at most 1 with losses, and are not negative.", "quantifier": "every stack with nonzero permeabilities (copies keep that of their original), pattern, incidence, call history", "why_tests_cant": "The claim ranges over a continuum of inputs; a test samples finitely many points.", "anchors": ["nannos/layers.py:Layer", "nannos/layers.py:Layer.solve_uniform", "nannos/simulation.py:Simulation.build_matrix", "nannos/simulation.py:Simulation.get_field_fourier", "nannos/simulation.py:Simulation.diffraction_efficiencies"]}
{"id": "C81", "title": "Supercells", "statement": "A structure described with n1 by n2 of its cells taken together, repeated pattern and correspondingly more harmonics, gives the results of the description with one cell: order (a,b) of the small cell is order (n1 a, n2 b) of the large one, with the same efficiencies and fields, and everything vanishes in the other orders.", "quantifier": "every structure (numbers or tensors), n1, n2, formulation, set of retained orders, incidence, layer, depth, call histories; arrays of tensors square (C108) outside the formulation original", "why_tests_cant": "The claim ranges over a continuum of inputs; a test samples finitely many points.", "anchors": ["nannos/simulation.py:Simulation.build_matrix", "nannos/simulation.py:Simulation._get_toeplitz_matrix", "nannos/simulation.py:Simulation.diffraction_efficiencies", "nannos/simulation.py:Simulation.get_field_fourier", "nannos/lattice.py:Lattice"]}
{"id": "C82", "title": "Lamellar gratings on a lattice with two periods", "statement": "A lamellar grating simulated on a lattice with one period and on a lattice with a second period of any length along the grooves gives the same efficiencies and fields in the orders with second number zero; everything vanishes in the others.", "quantifier": "every lamellar structure (numbers or tensors), second period, sampling along the grooves, set of retained orders, incidence, layer, depth, call histories", "why_tests_cant": "The claim ranges over a continuum of inputs; a test samples finitely many points.", "anchors": ["nannos/lattice.py:Lattice", "nannos/simulation.py:Simulation._get_toeplitz_matrix", "nannos/simulation.py:Simulation.build_matrix", "nannos/simulation.py:Simulation.diffraction_efficiencies"]}
{"id": "C83", "title": "Only the structure matters", "statement": "Two stacks which describe one structure - same superstrate, same substrate material, same material at every depth in between - give the same orders, the same efficiencies and, at points of one depth, the same fields, however the structure is cut into layers: any number of layers, copies or layers of their own, films of no thickness, any thickness of the substrate, any names.", "quantifier": "every pair of stacks, pattern, tensor, formulation, incidence, depth, call histories, choice of eigenvectors", "why_tests_cant": "The claim ranges over a continuum of inputs; a test samples finitely many points.", "anchors": ["nannos/simulation.py:Simulation.get_S_matrix", "nannos/simulation.py:Simulation.diffraction_efficiencies", "nannos/simulation.py:Simulation.get_field_fourier", "nannos/layers.py:Layer.copy", "nannos/simulation.py:Simulation.solve"]}
{"id": "C84", "title": "Thickness of the superstrate", "statement": "The thickness given to a lossless superstrate does not change the efficiencies, order by order and in total. At points at one distance from the first interface it multiplies all components of the fields, in all orders and layers, by one phase factor: that of the incident wave, exp(i k n cos(theta) d), over the difference d of the thicknesses.", "quantifier": "every stack, pattern, formulation, incidence, pair of thicknesses, order, layer, depth, call histories, choice of eigenvectors", "why_tests_cant": "The claim ranges over a continuum of inputs; a test samples finitely many points.", "anchors": ["nannos/simulation.py:Simulation.get_S_matrix", "nannos/simulation.py:Simulation.get_z_poynting_flux", "nannos/simulation.py:Simulation.diffraction_efficiencies", "nannos/simulation.py:Simulation.get_field_fourier", "nannos/simulation.py:phasor"]}
{"id": "C85", "title": "Absorbing structures always give results", "statement": "A wave incident from a lossless medium on layers which absorb at every point: the substrate absorbs too, or is homogeneous (lossless or not) below an absorbing layer of non-zero thickness. Once the modes of the layers have been found and are complete, no scattering matrix is singular: diffraction_efficiencies returns, and so does get_field_fourier in every layer at every depth, unless an order is exactly at grazing incidence.", "quantifier": "every stack of absorbing (isotropic or anisotropic) patterns and thicknesses, wavelength, angles, number of orders, depth, call history; formulation original, or one period, or (isotropic patterns) vectors which are the same at all pixels", "why_tests_cant": "The claim ranges over a continuum of inputs; a test samples finitely many points.", "anchors": ["nannos/simulation.py:Simulation.get_S_matrix", "nannos/simulation.py:Simulation.diffraction_efficiencies", "nannos/simulation.py:Simulation.get_field_fourier"]}
{"id": "C86", "title": "Solving never fails on ordinary materials", "statement": "solve() returns for every stack of homogeneous layers of non-zero permittivity, patterns whose permittivities lie in one open half plane (all positive, all absorbing, all negative...; for tensors, their transverse numerical ranges and zz entries) and copies of patterned layers, in every formulation; where vectors are needed, they are given or made on the pixels of the pattern (tensors: square arrays, two periods). Mixing positive and negative permittivities in one layer may raise LinAlgError.", "quantifier": "every stack, pattern, number of orders, wavelength, angles, call history, whenever the eigenvalue routine returns", "why_tests_cant": "The claim ranges over a continuum of inputs; a test samples finitely many points.", "anchors": ["nannos/simulation.py:Simulation.solve", "nannos/simulation.py:Simulation.build_matrix", "nannos/layers.py:Layer.solve_eigenproblem"]}
{"id": "C87", "title": "Results are differentiable functions of the thicknesses", "statement": "If a method returns a result for some thicknesses, it does so for all thicknesses near by, and every efficiency and every Fourier component of the fields (at depths which may vary too) depends on the thicknesses as smoothly as the thicknesses depend on the parameters of the user: continuous, differentiable any number of times, analytic. Gradients of any objective built from them exist.", "quantifier": "every stack, pattern, formulation, number of orders, call history; thicknesses given by any differentiable functions of any number of real parameters", "why_tests_cant": "The claim ranges over a continuum of inputs; a test samples finitely many points.", "anchors": ["nannos/simulation.py:Simulation.get_S_matrix", "nannos/simulation.py:Simulation.diffraction_efficiencies", "nannos/simulation.py:Simulation.get_field_fourier", "nannos/simulation.py:phasor"]}
{"id": "C88", "title": "Thicknesses for which no result is returned are isolated", "statement": "If the efficiencies, or the fields in a layer, are returned for one set of thicknesses, then along any analytic family of thicknesses through it (for instance varying the thickness of one layer) the same call fails for at most finitely many values in each bounded interval.", "quantifier": "every stack, pattern, formulation, number of orders, call history, analytic family of thicknesses", "why_tests_cant": "The claim ranges over a continuum of inputs; a test samples finitely many points.", "anchors": ["nannos/simulation.py:Simulation.get_S_matrix", "nannos/simulation.py:Simulation._solve_int", "nannos/simulation.py:Simulation.diffraction_efficiencies"]}
{"id": "C89", "title": "Results are differentiable functions of wavelength, angles, thicknesses and permittivities", "statement": "Let the wavelength, the angles of the wave, the thicknesses and every pixel of the permittivities depend smoothly on parameters. If the efficiencies of an order, the total efficiencies or the fields at a depth are returned for some parameters, then the values returned for near by parameters are those of a function which is as smooth there as the inputs: differentiable any number of times, analytic. This holds although the modes of the layers, chosen by the eigenvalue routine, may jump. Transparent superstrate, last layer without gain.", "quantifier": "every smooth family of structures and waves with any number of real parameters, every eigenvalue routine, number of orders, call history", "why_tests_cant": "The claim ranges over a continuum of inputs; a test samples finitely many points.", "anchors": ["nannos/simulation.py:Simulation.diffraction_efficiencies", "nannos/simulation.py:Simulation.get_field_fourier", "nannos/layers.py:Layer.solve_eigenproblem", "nannos/layers.py:Layer.solve_uniform", "nannos/excitation.py:PlaneWave"]}
{"id": "C90", "title": "Efficiencies are the textbook ratios of the returned electric fields", "statement": "For a wave coming from a lossless superstrate of index n, the efficiency returned for a transmitted order is the ratio of the normal wave vectors (zero for evanescent orders) times the ratio of the squared moduli of the electric field returned in the last layer, at any depth, and of the incident one, which is 1/n; the last layer is homogeneous with a real permittivity. The efficiency of a reflected order is the same, with the field returned in the superstrate minus the incident wave. What is between the two is arbitrary.", "quantifier": "every structure between the two, formulation, wavelength, angle of incidence and polarisation, order, depth, call histories before each result", "why_tests_cant": "The claim ranges over a continuum of inputs; a test samples finitely many points.", "anchors": ["nannos/simulation.py:Simulation.diffraction_efficiencies", "nannos/simulation.py:Simulation.get_field_fourier", "nannos/simulation.py:Simulation.get_z_poynting_flux", "nannos/excitation.py:PlaneWave"]}
{"id": "C91", "title": "The 3D picture shows the structure", "statement": "plot_structure draws what is computed: for nper periods along the basis vectors, layers stacked in order from height zero with the requested gaps, each with its thickness (an empty layer with null_thickness, or with the largest thickness), and at each point a box whose value is the real part of the permittivity of the pixel of the pattern there; only boxes of value one may be left out.", "quantifier": "every stack of homogeneous and patterned layers, numbers of pixels, lattice, number of periods, gap and null_thickness", "why_tests_cant": "The claim ranges over a continuum of inputs; a test samples finitely many points.", "anchors": ["nannos/plot.py:plot_structure"]}
{"id": "C92", "title": "Picture of a layer: tiles and limits", "statement": "Layer.plot draws one copy of the unit cell for each pair of periods, displaced by the vectors of the lattice; the limits of the axes contain all copies; the outline of the unit cell is the parallelogram spanned by the basis vectors; nper is an integer or a pair and anything else is rejected.", "quantifier": "every lattice and number of periods", "why_tests_cant": "The claim ranges over a continuum of inputs; a test samples finitely many points.", "anchors": ["nannos/plot.py:plot_layer", "nannos/plot.py:plot_unit_cell", "nannos/layers.py:Layer.plot"]}
{"id": "C93", "title": "A pattern acts through its Fourier coefficients", "statement": "In the formulation original, and in tangent for mono-periodic lattices, results depend on a patterned isotropic layer only through the retained Fourier coefficients of its permittivity and, for tangent, of the inverse permittivity: two structures whose patterns agree in these give the same result, or the same error, for every call after every history. With a single retained order a pattern acts exactly as a homogeneous layer of its mean permittivity. For a stack of homogeneous layers the formulation and the generator of tangent fields have no influence at all.", "quantifier": "all structures, formulations, numbers of orders, histories of calls", "why_tests_cant": "The claim ranges over a continuum of inputs; a test samples finitely many points.", "anchors": ["nannos/simulation.py:Simulation.build_matrix", "nannos/simulation.py:Simulation._get_toeplitz_matrix", "nannos/simulation.py:Simulation._get_nu_hat_inv"]}
{"id": "C94", "title": "Thin layers disappear", "statement": "A film placed anywhere inside a stack disappears as its thickness tends to zero: the orders are those of the stack without the film, results are returned for all small thicknesses, and efficiencies and fields in every other layer tend to those of the stack without the film. (The film of thickness zero is accepted.)", "quantifier": "every stack, film (uniform or patterned), formulation, and history of calls for each thickness", "why_tests_cant": "The claim ranges over a continuum of inputs; a test samples finitely many points.", "anchors": ["nannos/simulation.py:Simulation.get_S_matrix", "nannos/simulation.py:Simulation.get_field_fourier", "nannos/simulation.py:phasor"]}
{"id": "C95", "title": "Energy with tangent vectors", "statement": "In the formulations which use tangent vectors (tangent, jones, pol), on lattices with one or two periods, a structure whose inner layers are lossless returns R + T = 1, and one whose inner layers are passive returns 0 <= R and R + T <= 1, whatever tangent vectors are given to the patterned layers.", "quantifier": "every structure of isotropic layers, formulation, lattice, number of orders, incidence, tangent vectors and call history", "why_tests_cant": "The claim ranges over a continuum of inputs; a test samples finitely many points.", "anchors": ["nannos/simulation.py:Simulation.diffraction_efficiencies", "nannos/simulation.py:Simulation._get_Peps", "nannos/simulation.py:Simulation._get_nu_hat_inv", "nannos/layers.py:Layer.get_tangent_field"]}
{"id": "C96", "title": "Power balance of the scattering matrix", "statement": "Let get_S_matrix() have returned S = [[S11, S12], [S21, S22]]. For any incoming amplitudes a in the first layer and b in the last one, in any orders, propagating or evanescent, get_z_poynting_flux returns for (a, S21 a + S22 b) in the first layer and for (S11 a + S12 b, b) in the last one; the total fluxes are equal if the layers in between are lossless, and the first is at least the second if they are passive.", "quantifier": "every structure, incidence, number of orders, amplitudes from both sides, and history of calls; formulation original, or one period, or vectors which are the same at all pixels", "why_tests_cant": "The claim ranges over a continuum of inputs; a test samples finitely many points.", "anchors": ["nannos/simulation.py:Simulation.get_S_matrix", "nannos/simulation.py:Simulation.get_z_poynting_flux"]}
{"id": "C97", "title": "A scattering matrix is missing only where a part of the stack supports a wave by itself", "statement": "After solve() has succeeded with independent eigenvectors, get_S_matrix((i, j)) with i < j returns a matrix if and only if no mode of the layers i..j is constant in depth (zero propagation constant) and no part i..k of them, i < k <= j, supports a wave by itself: modal amplitudes, not all zero, whose tangential fields match at the interfaces, with no wave coming from either side. When such a wave exists LinAlgError is raised. The outcome does not depend on the calls made before.", "quantifier": "every structure, formulation, incidence, number of orders, pair of layers and history of calls", "why_tests_cant": "The claim ranges over a continuum of inputs; a test samples finitely many points.", "anchors": ["nannos/simulation.py:Simulation.get_S_matrix", "nannos/simulation.py:Simulation._build_Imatrix"]}
{"id": "C98", "title": "Results are returned whenever the illuminated stack has one response", "statement": "After solve() has succeeded with independent eigenvectors and no mode is constant in depth, when the stack as a whole supports no wave by itself (so that it responds to the incoming wave in exactly one way) diffraction_efficiencies and get_field_fourier in every layer return.", "quantifier": "every structure, formulation, incidence, number of orders, layer, depth and history of calls", "why_tests_cant": "The claim ranges over a continuum of inputs; a test samples finitely many points.", "anchors": ["nannos/simulation.py:Simulation.diffraction_efficiencies", "nannos/simulation.py:Simulation.get_field_fourier", "nannos/simulation.py:Simulation._solve_int", "nannos/simulation.py:Simulation.get_S_matrix"]}
{"id": "C99", "title": "Differentiation is available exactly with autograd and torch", "statement": "nannos.grad(f) returns a function when the active backend is autograd or torch, whose arrays are then the ones used in computations, and raises NotImplementedError with every other backend, including when a missing backend was requested and numpy took its place.", "quantifier": "every environment and every history of set_backend, use_gpu, use_32_bit and set_log_level, failed calls included", "why_tests_cant": "The claim ranges over a continuum of inputs; a test samples finitely many points.", "anchors": ["nannos/__init__.py:grad", "nannos/__init__.py:_grad", "nannos/__init__.py:set_backend", "nannos/__init__.py:_reload_package"]}
{"id": "C100", "title": "Modes of lossless gratings", "statement": "In a layer of a mono-periodic lattice whose permittivity is real and positive at every point, below a superstrate of real positive permittivity, every propagation constant returned by solve() is real and not negative, or imaginary with a positive imaginary part: no mode is damped while it propagates, at any truncation and in any formulation. The modes of every layer are complete when the plane of incidence contains the period, and in conical mounting when no mode has q^2 = -ky^2; then solve() succeeds and efficiencies are returned whenever no mode is constant in depth and no part of the stack from the top supports a wave by itself.", "quantifier": "every pattern with real positive values, thicknesses, wavelength, angles, number of orders, formulation, call history; every eigenvalue routine which returns all eigenvalues and a basis of eigenvectors when there is one", "why_tests_cant": "The claim ranges over a continuum of inputs; a test samples finitely many points.", "anchors": ["nannos/simulation.py:Simulation.build_matrix", "nannos/simulation.py:Simulation._get_Peps", "nannos/layers.py:Layer.solve_eigenproblem", "nannos/layers.py:Layer.solve_uniform", "nannos/simulation.py:Simulation.diffraction_efficiencies"]}
{"id": "C101", "title": "Conical mounting shifts the modes", "statement": "On a mono-periodic lattice, two simulations of the same isotropic layers with waves of one wavelength and one wave vector component along the period find in every layer the same values of q^2 + ky^2, with the same multiplicities: the component of the wave vector along the grooves only shifts the squares of the propagation constants.", "quantifier": "every stack of isotropic layers (lossless or not), formulation, wavelength, pair of incidences, number of orders; every eigenvalue routine which returns all eigenvalues", "why_tests_cant": "The claim ranges over a continuum of inputs; a test samples finitely many points.", "anchors": ["nannos/simulation.py:Simulation.build_matrix", "nannos/layers.py:Layer.solve_eigenproblem", "nannos/layers.py:Layer.solve_uniform", "nannos/excitation.py:PlaneWave"]}
{"id": "C102", "title": "Patterns painted with shapes", "statement": "eps = lattice.constant(e0) (or ones(), zeros()) followed by assignments eps[mask] = e succeeds exactly when every mask has the shape of the grid of the lattice (IndexError otherwise); each pixel of the result has the value of the last assigned mask which contains it, and e0 if there is none. With lattice.circle this is a disc in a background (up to the polygon drawn for the circle), with lattice.stripe the closed stripes. lattice.Layer(...) is Layer(..., lattice=lattice) whatever is given as its argument lattice, and the layer keeps the painted permittivity as a patterned isotropic one unless the grid has 3 by 3 pixels.", "quantifier": "every lattice, background value, list of masks and values, and layer argument", "why_tests_cant": "The claim ranges over a continuum of inputs; a test samples finitely many points.", "anchors": ["nannos/lattice.py: Lattice.ones, Lattice.zeros, Lattice.constant, Lattice.circle, Lattice.stripe, Lattice.Layer", "nannos/layers.py: Layer.__init__"]}
{"id": "C103", "title": "Refractive indices and wavelength multiplied by one number", "statement": "Multiply the permittivity of every layer by p^2 (its refractive index by p > 0) and the wavelength by p, keeping the angles. Construction raises the same error or succeeds as before, with the same orders, wavevectors and incident amplitudes; every later call raises the same error or returns the same scattering matrices, diffraction efficiencies, complex amplitudes and magnetic fields, while electric fields and fluxes are divided by p. This holds for patterned, anisotropic, absorbing and copied layers in every formulation, unless vectors are left to a generator which sees the factor.", "quantifier": "every stack, lattice, formulation, factor, wavelength, angles, number of orders and call history, errors included", "why_tests_cant": "The claim ranges over a continuum of inputs; a test samples finitely many points.", "anchors": ["nannos/excitation.py:PlaneWave", "nannos/simulation.py:Simulation.__init__", "nannos/simulation.py:Simulation.build_matrix", "nannos/simulation.py:Simulation.get_S_matrix", "nannos/simulation.py:Simulation.get_field_fourier", "nannos/simulation.py:Simulation.diffraction_efficiencies", "nannos/layers.py:Layer.solve_uniform"]}
{"id": "C104", "title": "Turning the stack upside down swaps the two sides of the scattering matrix", "statement": "Reverse the list of layers and light it through what was the last layer, at the same wavelength, in the same plane of incidence and at the angle given by Snell's law. Whenever get_S_matrix returns the matrix of layers i..j of the one simulation and of the same layers (numbered N-1-j..N-1-i) of the other, after any calls on either, the two are equal with the two sides swapped (S11<->S22, S12<->S21). The reversed stack is accepted with the same orders and can be solved iff the original can. A stack which is its own mirror image has S11 = S22 and S12 = S21.", "quantifier": "all stacks without copies (any materials, patterns, thicknesses), all formulations, truncation orders, wavelengths, angles, ranges of layers, histories of calls on both simulations", "why_tests_cant": "The claim ranges over a continuum of inputs; a test samples finitely many points.", "anchors": ["nannos/simulation.py: Simulation.__init__, solve, get_S_matrix, build_matrix", "nannos/layers.py: Layer.solve_uniform, Layer.solve_eigenproblem"]}
{"id": "C105", "title": "With as many orders as pixels all formulations give the same results", "statement": "If the retained orders are as many as the pixels of every pattern, and no two of them are the same frequency on the pixels (for example N harmonics of a mono-periodic lattice with N pixels, N odd; N*N harmonics of the parallelogrammic truncation with N x N pixels, N odd), then every formulation the constructor accepts gives the same: after every history every call returns or raises exactly what it does in the 'original' formulation, whatever the vector fields. This holds for isotropic patterns and, on bi-periodic lattices, for patterns of tensors whose transverse part is invertible.", "quantifier": "all stacks of homogeneous layers and such patterns, all permittivities (also those for which calls raise), all real vector fields on the pixels (given or generated), wavelengths, angles, eigensolvers, histories of calls", "why_tests_cant": "The claim ranges over a continuum of inputs; a test samples finitely many points.", "anchors": ["nannos/simulation.py: Simulation._get_toeplitz_matrix, _get_nu_hat_inv, _get_Peps, build_matrix", "nannos/lattice.py: Lattice.get_harmonics"]}
{"id": "C106", "title": "The default tangent vectors are the band-limited slopes of the pattern", "statement": "The vectors which the default generator ('opt') returns for a pattern are determined by the pattern and the orders: any minimisation which returns a minimiser gives the same ones. For distinct orders in opposite pairs and at most 64 x 64 pixels they are the smoothed slopes of the modulus of the permittivity, restricted to the Fourier orders, turned by a quarter turn and scaled to length one (with normalisation) or all divided by the length of the longest one (without). They see the moduli of the permittivities up to a common factor and nothing else (so materials of equal modulus show no interface, and the correspondence of indices and wavelength holds for them), and they move along with patterns which do not reach the border. On finer patterns they are stretched over the cell by a fraction of a coarse pixel.", "quantifier": "all patterns of accepted sizes, all permittivities, all lists of orders, both normalisations, all minimisation methods", "why_tests_cant": "The claim ranges over a continuum of inputs; a test samples finitely many points.", "anchors": ["nannos/formulations/tangent.py: _get_tangent_field_min, get_tangent_field", "nannos/layers.py: Layer.get_tangent_field"]}
{"id": "C107", "title": "Generated tangent vectors are those of the orders of the simulation", "statement": "A layer for which tangent vectors are generated behaves, in every call and after every history, as the layer which is given as tangent_field the vectors its generator returns for its pattern and the harmonics of the simulation.", "quantifier": "all lattices, truncations and numbers of orders, all stacks and patterns, all generators, formulations, histories and calls", "why_tests_cant": "The claim ranges over a continuum of inputs; a test samples finitely many points.", "anchors": ["nannos/simulation.py: Simulation.build_matrix", "nannos/lattice.py: Lattice.get_harmonics", "nannos/layers.py: Layer.get_tangent_field", "nannos/formulations/tangent.py: _get_tangent_field_min"]}
{"id": "C108", "title": "Patterns of tensors on arrays of any shape", "statement": "A pattern of tensors may be given on an array with any numbers of pixels Nx and Ny, equal or not: in every formulation the tensor of each pixel is the one inverted, and the structure is solved whenever the corresponding one on a square array is.", "quantifier": "all numbers of pixels, tensors, formulations, stacks and call histories", "why_tests_cant": "The claim ranges over a continuum of inputs; a test samples finitely many points.", "anchors": ["nannos/simulation.py: Simulation._get_nu_hat_inv", "nannos/utils/helpers.py: inv2by2block", "nannos/utils/helpers.py: get_block", "nannos/utils/helpers.py: block2list"]}
{"id": "C109", "title": "Angles which describe one wave", "statement": "Two triples of angles which give one direction and one polarisation vector give the same PlaneWave (but for the angles it stores) or the same error, the same simulation or error, and the same result of every call after every history: full turns may be added to any angle, (theta, phi, psi) and (-theta, phi + 180, psi + 180) are one wave, and at normal incidence only phi + psi counts. A direction which leads away from the structure (cos theta < 0) is not refused: the results are those of the mirror image of the wave with all efficiencies of the opposite sign.", "quantifier": "all angles, wavelengths, structures, formulations, numbers of orders, call histories and calls, errors included", "why_tests_cant": "The claim ranges over a continuum of inputs; a test samples finitely many points.", "anchors": ["nannos/excitation.py: PlaneWave.__init__", "nannos/simulation.py: Simulation.__init__", "nannos/simulation.py: Simulation.diffraction_efficiencies"]}
{"id": "C110", "title": "Orders which do not propagate carry no power", "statement": "The diffraction orders obey the grating equation of the lattice: an order whose wave vector along the layers is at least as long as the wave number in the last layer (of real permittivity) has transmitted efficiency exactly zero, and one at least as long as the wave number in the superstrate has reflected efficiency exactly zero, whatever lies in between and in every formulation. So a lossless stack over a medium in which no order propagates reflects everything (R = 1, T = 0), and a lossless grating of one period a with a (n |sin theta| + max(n, sqrt eps)) <= wavelength has R + T = 1 in the specular order alone.", "quantifier": "all lattices, structures, formulations, wavelengths, angles, numbers of orders and call histories", "why_tests_cant": "The claim ranges over a continuum of inputs; a test samples finitely many points.", "anchors": ["nannos/simulation.py: Simulation.diffraction_efficiencies", "nannos/simulation.py: Simulation.__init__ (kx, ky)", "nannos/lattice.py: Lattice.reciprocal"]}
{"id": "C111", "title": "Thickness of the last layer", "statement": "The thickness given to the last layer (lossless, absorbing or patterned) does not change what is returned: efficiencies by order and in total (transmission is counted at the top of the last layer), complex amplitudes, Fourier components of the fields in every layer at every depth, and the two blocks of the scattering matrix for waves coming from above.", "quantifier": "every stack, material and pattern of every layer, formulation, incidence, pair of thicknesses (also negative ones), depth and layer, and pair of call histories", "why_tests_cant": "The claim ranges over a continuum of inputs; a test samples finitely many points.", "anchors": ["nannos/simulation.py:Simulation.get_S_matrix", "nannos/simulation.py:Simulation.diffraction_efficiencies", "nannos/simulation.py:Simulation.get_field_fourier", "nannos/simulation.py:Simulation._solve_ext", "nannos/simulation.py:_translate_amplitudes"]}
{"id": "C112", "title": "Fields in real space at oblique incidence", "statement": "get_field_grid returns the fields at the pixels of the unit cell: at each pixel and depth, every component is the sum over the retained orders of its Fourier component times the phase of the wave of that order, whose wave vector along the layers obeys the grating equation for the incident wave.", "quantifier": "every stack, formulation, incidence, layer, depths, shape of the grid in which the orders fit, field and component, and state of the simulation", "why_tests_cant": "The claim ranges over a continuum of inputs; a test samples finitely many points.", "anchors": ["nannos/simulation.py:Simulation.get_field_grid", "nannos/simulation.py:Simulation.get_ifft_amplitudes"]}
{"id": "C113", "title": "Power of the fields in real space", "statement": "The mean over the pixels of the component of Re(conj(E) x H) across the layers, computed from the fields get_field_grid returns, is the sum over the orders of the same component computed from get_field_fourier, in every layer and at every depth, when the pixels tell the orders apart. At the top of the last layer, divided by the power of the incident wave, it is the total transmission diffraction_efficiencies returns; at the bottom of the first layer it is one minus the total reflection.", "quantifier": "every stack with a lossless superstrate, formulation, incidence, grid, layer, depth and pair of call histories", "why_tests_cant": "The claim ranges over a continuum of inputs; a test samples finitely many points.", "anchors": ["nannos/simulation.py:Simulation.get_field_grid", "nannos/simulation.py:Simulation.get_field_fourier", "nannos/simulation.py:Simulation.diffraction_efficiencies"]}
{"id": "C114", "title": "Power at every depth", "statement": "In a lossless stack the flux of the fields get_field_fourier returns is the same in every layer and at every depth: the total transmission diffraction_efficiencies returns, times the flux of the incident wave; the same holds for the mean over the pixels of the fields get_field_grid returns. If the layers are passive, the flux does not increase with the depth in a layer; below the first layer it is at most one minus the total reflection, and above the last one at least the total transmission.", "quantifier": "every stack with a lossless superstrate, incidence, layer, list of depths and pair of call histories; formulation original, one period, or constant tangent vectors", "why_tests_cant": "The claim ranges over a continuum of inputs; a test samples finitely many points.", "anchors": ["nannos/simulation.py:Simulation.get_field_fourier", "nannos/simulation.py:Simulation.get_field_grid", "nannos/simulation.py:Simulation.diffraction_efficiencies"]}
{"id": "C115", "title": "Next power of two", "statement": "next_power_of_2(x) returns the smallest of 1, 2, 4, ... which is not less than x, for zero and for every number above one half, so for every natural number. For a positive number up to one half it returns 0, and for a negative one it raises ValueError.", "quantifier": "every real number", "why_tests_cant": "The claim ranges over a continuum of inputs; a test samples finitely many points.", "anchors": ["nannos/utils/helpers.py:next_power_of_2"]}
{"id": "C116", "title": "Half-wave layers", "statement": "A non-magnetic homogeneous layer across which the waves of all the orders make whole numbers of half waves, all even or all odd, can be inserted anywhere inside a stack without changing the diffraction efficiencies of any order. The scattering matrix get_S_matrix() returns is the same, apart from the sign of the transmission blocks when the numbers are odd.", "quantifier": "all stacks without copies, all places inside them, all lattices, formulations, incident waves and numbers of harmonics, all thicknesses of the layer other than zero, all real or complex layers around it, and all calls made before", "why_tests_cant": "The claim ranges over a continuum of inputs; a test samples finitely many points.", "anchors": ["nannos/simulation.py:Simulation.get_S_matrix", "nannos/simulation.py:Simulation.diffraction_efficiencies", "nannos/layers.py:Layer.solve_uniform"]}
{"id": "C117", "title": "Half waves of thickness", "statement": "The thickness of a non-magnetic homogeneous layer inside a stack can be changed by an amount across which the waves of all the orders make whole numbers of half waves, all even or all odd: the efficiencies of all orders stay the same, and so does the matrix get_S_matrix() returns, apart from the sign of the transmission blocks when the numbers are odd.", "quantifier": "every stack, layer inside it, pair of thicknesses (also negative ones), material and pattern of the other layers, lattice, formulation, incidence and pair of call histories", "why_tests_cant": "The claim ranges over a continuum of inputs; a test samples finitely many points.", "anchors": ["nannos/simulation.py:Simulation.get_S_matrix", "nannos/simulation.py:Simulation.diffraction_efficiencies", "nannos/layers.py:Layer.solve_uniform"]}
{"id": "C118", "title": "Thick opaque layers", "statement": "A non-magnetic homogeneous layer inside a stack in which every order is damped or evanescent becomes a substrate when it is made thicker and thicker: the efficiencies are returned for all large thicknesses, the transmission of every order tends to zero, and the reflection of every order tends to that of the stack cut inside the layer. This holds whenever the cut stack has efficiencies, the part of the stack from the layer down has a scattering matrix, and no layer above is a copy; the first two need not be assumed if the superstrate is lossless and the layers inside absorb.", "quantifier": "every stack, layer inside it, material and pattern of the other layers, lattice, formulation and incidence, whatever calls were made before, as the thickness grows without bound", "why_tests_cant": "The claim ranges over a continuum of inputs; a test samples finitely many points.", "anchors": ["nannos/simulation.py:Simulation.get_S_matrix", "nannos/simulation.py:Simulation.diffraction_efficiencies", "nannos/layers.py:Layer.solve_uniform", "nannos/simulation.py:phasor"]}
{"id": "C119", "title": "Frustrated total reflection", "statement": "A wave coming from a lossless medium meets a homogeneous gap in which it is evanescent (total reflection), with a lossless medium below in which it propagates again. As the gap gets wider the total efficiencies are returned for all large widths, the reflection tends to 1 and the transmission to 0.", "quantifier": "every three homogeneous non-magnetic layers, wavelength, angles beyond the critical angle, polarisation, lattice and formulation, whatever calls were made before, as the width grows without bound", "why_tests_cant": "The claim ranges over a continuum of inputs; a test samples finitely many points.", "anchors": ["nannos/simulation.py:Simulation.get_S_matrix", "nannos/simulation.py:Simulation.diffraction_efficiencies", "nannos/layers.py:Layer.solve_uniform"]}
{"id": "C120", "title": "Films without reflection", "statement": "A film of any non-magnetic homogeneous material between two equal lossless media reflects nothing exactly when its thickness is a whole number of half waves (measured along the normal), or it has the permittivity of the media around it, or the magnetic field is parallel to the film and the wave comes at Brewster's angle.", "quantifier": "every film permittivity (lossy or not) other than 0 and the grazing value, thickness, wavelength, angles, polarisation, lattice and formulation, whatever calls were made before", "why_tests_cant": "The claim ranges over a continuum of inputs; a test samples finitely many points.", "anchors": ["nannos/simulation.py:Simulation.get_S_matrix", "nannos/simulation.py:Simulation.diffraction_efficiencies", "nannos/layers.py:Layer.solve_uniform"]}

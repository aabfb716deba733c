{"id": "C01", "title": "Solid sphere: reported distances are exactly the forward surface crossings", "statement": "For a solid sphere, every start point and every unit direction, the pair returned by DistanceToBorder lists exactly the surface crossings of the forward ray that lie at least 1e-9 away, in ascending order, padded with -1; a tangential touch counts as no crossing.", "quantifier": "every centre, every radius > 0, every position and unit direction in R^3", "why_tests_cant": "positions, directions and radii range over a continuum; tangency, on-surface starts and the 1e-9 dead zone are measure-zero cases a sampled test does not visit", "anchors": ["src/PROPOSAL/detail/PROPOSAL/geometry/Sphere.cxx: Sphere::DistanceToBorder 63-241", "src/PROPOSAL/PROPOSAL/geometry/Geometry.h: DistanceToBorder contract"]}
{"id": "C02", "title": "Hollow sphere: reported distances are the nearest two crossings of the shell", "statement": "For a spherical shell (inner radius > 0), in general position the returned pair starts with the nearest forward crossing of the two surfaces, the particle is classified inside exactly when it is between the surfaces, and both reported numbers are genuine crossing distances or -1.", "quantifier": "every shell, every position and unit direction not on a surface and not tangent", "why_tests_cant": "four possible crossings with sign case distinctions; only a proof covers all orderings", "anchors": ["src/PROPOSAL/detail/PROPOSAL/geometry/Sphere.cxx: Sphere::DistanceToBorder 143-241"]}
{"id": "C03", "title": "Box: reported distances are exactly the forward surface crossings", "statement": "For a box, every start point and every direction, DistanceToBorder returns exactly the forward crossings of the surface of the solid box (one when inside, two when the box lies ahead, none otherwise), ascending and padded with -1.", "quantifier": "every box with positive side lengths, every position and non-zero direction", "why_tests_cant": "the six-face case analysis has edge/corner coincidences that need a case distinction over all of R^3 x S^2", "anchors": ["src/PROPOSAL/detail/PROPOSAL/geometry/Box.cxx: Box::DistanceToBorder 63-282"]}
{"id": "C04", "title": "Cylinder: first reported distance is the nearest forward border", "statement": "For a (possibly hollow) cylinder the first reported distance is never larger than the second, and is the nearest forward crossing of the cylinder's surface.", "quantifier": "every cylinder, every position and unit direction", "why_tests_cant": "the code distinguishes dozens of barrel/cap/inner/outer combinations; tests sample a few", "anchors": ["src/PROPOSAL/detail/PROPOSAL/geometry/Cylinder.cxx: Cylinder::DistanceToBorder 68-520"]}
{"id": "C05", "title": "In front / inside / behind is a partition", "statement": "For every geometry, position and direction exactly one of IsInfront, IsInside, IsBehind holds, GetLocation agrees with it, and IsEntering and IsLeaving exclude each other; the propagator relies on a particle being classified uniquely.", "quantifier": "every geometry whose DistanceToBorder obeys the documented (-1/positive, first filled before second) shape; all shipped shapes; every position and direction", "why_tests_cant": "ranges over all geometries and all rays", "anchors": ["src/PROPOSAL/detail/PROPOSAL/geometry/Geometry.cxx 88-160", "src/PROPOSAL/PROPOSAL/geometry/Geometry.h"]}
{"id": "C06", "title": "Inside means inside", "statement": "For a solid sphere or box, IsInside(position, direction) holds exactly when the position lies in the solid (open body, with the 1e-9 border convention resolved by the direction), independently of direction for strictly interior points.", "quantifier": "every sphere/box, position and direction", "why_tests_cant": "continuum of inputs; border convention differs from naive membership", "anchors": ["src/PROPOSAL/detail/PROPOSAL/geometry/Geometry.cxx: IsInside 88-99", "src/PROPOSAL/detail/PROPOSAL/geometry/Sphere.cxx", "src/PROPOSAL/detail/PROPOSAL/geometry/Box.cxx"]}
{"id": "C07", "title": "Closest-approach distance minimises the distance to the centre", "statement": "DistanceToClosestApproach returns the signed path length along a unit direction at which the distance to the geometry's centre is minimal over the whole line.", "quantifier": "every geometry centre, position, unit direction and every other point of the line", "why_tests_cant": "universally quantified minimisation claim", "anchors": ["src/PROPOSAL/detail/PROPOSAL/geometry/Geometry.cxx: DistanceToClosestApproach 163-166"]}
{"id": "C08", "title": "The active sector is a containing sector of maximal hierarchy", "statement": "Whenever some sector contains the particle, the sector used for propagation contains it and no containing sector has a higher hierarchy; ties go to the first declared sector; if none contains it the track-query API throws while the propagator has undefined behaviour.", "quantifier": "every list of sectors, every position and direction", "why_tests_cant": "arbitrary sector lists, hierarchies and overlaps", "anchors": ["src/PROPOSAL/detail/PROPOSAL/Propagator.cxx: GetCurrentSector 337-360", "src/PROPOSAL/detail/PROPOSAL/Secondaries.cxx: GetCurrentSector 345-366"]}
{"id": "C09", "title": "A step never crosses into a region of higher hierarchy unnoticed", "statement": "The border distance used for a step is at most the forward border distance of the current geometry and at most that of every geometry of higher hierarchy that lies ahead, and it equals one of them; geometries of lower or equal hierarchy never shorten it.", "quantifier": "every sector list, current geometry, position and direction", "why_tests_cant": "arbitrary numbers and arrangements of overlapping volumes", "anchors": ["src/PROPOSAL/detail/PROPOSAL/Propagator.cxx: CalculateDistanceToBorder 305-321"]}
{"id": "C10", "title": "The next interaction is the one reached at the highest energy", "statement": "Out of decay, minimal energy and stochastic interaction the propagator schedules the one with the largest interaction energy, preferring decay over minimal energy over stochastic on ties.", "quantifier": "all triples of interaction energies", "why_tests_cant": "ties and orderings over the reals", "anchors": ["src/PROPOSAL/detail/PROPOSAL/Propagator.cxx: maximize 323-328, Propagate 78-87"]}
{"id": "C11", "title": "A continuous step always terminates within the step limit", "statement": "For arbitrary medium, density, geometry, scattering and random-number behaviour a single continuous step finishes after at most 201 trial iterations, and the internal consistency exception cannot be raised as long as the remaining distance is not negative.", "quantifier": "every behaviour of all plugged-in physics components and every random stream", "why_tests_cant": "the plugged-in numerics are arbitrary; a test exercises one of them", "anchors": ["src/PROPOSAL/detail/PROPOSAL/Propagator.cxx: AdvanceParticle 153-303", "src/PROPOSAL/detail/PROPOSAL/Constants.cxx: ADVANCE_PARTICLE_MAX_STEPS"]}
{"id": "C12", "title": "The propagated distance never exceeds the requested maximum", "statement": "Propagate(state, max_distance, ...) never returns a track whose propagated distance exceeds max_distance (for an initial distance at most max_distance).", "quantifier": "every sector list, physics, random stream and max_distance", "why_tests_cant": "depends on the coincidence of interaction point and border", "anchors": ["src/PROPOSAL/detail/PROPOSAL/Propagator.cxx: AdvanceParticle 238-290, Propagate 58-139"]}
{"id": "C13", "title": "Distance and time never decrease along a track", "statement": "Along every track the propagated distance and the time are non-decreasing.", "quantifier": "every propagation with non-negative step lengths and elapsed times", "why_tests_cant": "induction over arbitrarily long tracks", "anchors": ["src/PROPOSAL/detail/PROPOSAL/Propagator.cxx: AdvanceParticle 293-300"]}
{"id": "C14", "title": "Energy never increases along a track", "statement": "Along every track the particle energy is non-increasing and every stochastic loss removes exactly the reported fraction of the energy.", "quantifier": "every propagation, assuming the plugged-in continuous loss, randomisation and loss sampling stay in their documented ranges", "why_tests_cant": "induction over arbitrarily long tracks", "anchors": ["src/PROPOSAL/detail/PROPOSAL/Propagator.cxx: Propagate, DoStochasticInteraction 141-151, AdvanceParticle"]}
{"id": "C15", "title": "Track shape", "statement": "Every returned track starts with the unmodified initial state, the state, type and target lists have equal length, two stochastic entries are never adjacent (each is preceded by a continuous entry), a decay entry can only be the last one, and the final entry explains why propagation stopped.", "quantifier": "every propagation of any length", "why_tests_cant": "induction over arbitrarily long tracks and all stopping reasons", "anchors": ["src/PROPOSAL/detail/PROPOSAL/Propagator.cxx: Propagate 58-139", "src/PROPOSAL/detail/PROPOSAL/Secondaries.cxx: push_back 33-50"]}
{"id": "C16", "title": "Steps are straight and consistent with the propagated distance", "statement": "In each continuous step the position moves by (new distance - old distance) times the mean scattering direction; with unit mean directions the polyline length of the track equals the propagated distance.", "quantifier": "every propagation", "why_tests_cant": "induction over arbitrarily long tracks", "anchors": ["src/PROPOSAL/detail/PROPOSAL/Propagator.cxx: AdvanceParticle 293-300"]}
{"id": "C17", "title": "Repeated trials of one step see the same random numbers", "statement": "Within one continuous step the k-th random number requested is the same in every trial iteration until the set is explicitly redrawn, and at most four fresh numbers are consumed per set.", "quantifier": "every random stream and every number of trials", "why_tests_cant": "history dependent memoisation", "anchors": ["src/PROPOSAL/detail/PROPOSAL/Propagator.cxx: AdvanceParticle 176-183, 210-212, 268-272"]}
{"id": "C18", "title": "Hierarchy condition stops exactly at the outward crossing", "statement": "Propagation stops at a border exactly when the sector left has hierarchy above the condition and the sector entered has hierarchy below it.", "quantifier": "all hierarchies and conditions", "why_tests_cant": "decision logic over all unsigned values", "anchors": ["src/PROPOSAL/detail/PROPOSAL/Propagator.cxx: Propagate 124-132"]}
{"id": "C19", "title": "Energy balance of a track", "statement": "For every track the reported continuous and stochastic losses (plus nothing else, decays carrying none) sum to initial minus final energy.", "quantifier": "every track whose decay entries keep the energy", "why_tests_cant": "sums over arbitrarily long tracks", "anchors": ["src/PROPOSAL/detail/PROPOSAL/Secondaries.cxx: GetStochasticLosses 368-437, GetContinuousLosses 439-476"]}
{"id": "C20", "title": "Loss lists partition the track", "statement": "Every track entry after the first is reported in exactly one of continuous losses, stochastic losses or decay; stochastic losses restricted to a type are the matching sublist in order; the geometry restricted list is a sublist of the full one; losses carry the parent energy, position and target of their entry.", "quantifier": "every track", "why_tests_cant": "arbitrary tracks", "anchors": ["src/PROPOSAL/detail/PROPOSAL/Secondaries.cxx 368-476"]}
{"id": "C21", "title": "State lookup by energy", "statement": "GetStateForEnergy returns the initial state for energies at or above the initial energy, the final state below the final energy, the state before the loss inside a stochastic loss, and otherwise a state with exactly the requested energy between the two neighbouring track points.", "quantifier": "every track with non-increasing energies and every requested energy", "why_tests_cant": "arbitrary tracks and energies", "anchors": ["src/PROPOSAL/detail/PROPOSAL/Secondaries.cxx: GetStateForEnergy 84-104, RePropagateEnergy 292-319", "src/PROPOSAL/PROPOSAL/Secondaries.h"]}
{"id": "C22", "title": "State lookup by distance", "statement": "GetStateForDistance returns the initial state before the start, the final state beyond the end, and otherwise a state with exactly the requested propagated distance lying on the straight segment between the neighbouring track points.", "quantifier": "every track with non-decreasing distance whose segments have length equal to the distance difference", "why_tests_cant": "arbitrary tracks and distances", "anchors": ["src/PROPOSAL/detail/PROPOSAL/Secondaries.cxx: GetStateForDistance 106-122, RePropagateDistance 321-343"]}
{"id": "C23", "title": "Re-propagation yields the same time as propagation", "statement": "A state obtained by track lookup has the time a particle propagated to that point would have had.", "quantifier": "every density and both time calculators", "why_tests_cant": "depends on density, only visible with approximate time", "anchors": ["src/PROPOSAL/detail/PROPOSAL/Secondaries.cxx: RePropagateEnergy 312-313, RePropagateDistance 337-338", "src/PROPOSAL/detail/PROPOSAL/Propagator.cxx 293", "src/PROPOSAL/detail/PROPOSAL/propagation_utility/TimeBuilder.cxx"]}
{"id": "C24", "title": "Entry and exit points lie on the border of the geometry", "statement": "GetEntryPoint returns nothing when the track starts inside or never reaches the geometry, otherwise a track point or interpolated state within 1e-3 of the first border crossing; GetExitPoint symmetrically for the last one; GetELost is their energy difference and is undefined if either is missing.", "quantifier": "every track and geometry", "why_tests_cant": "arbitrary tracks", "anchors": ["src/PROPOSAL/detail/PROPOSAL/Secondaries.cxx: GetELost 164-169, GetEntryPoint 171-200, GetExitPoint 202-237"]}
{"id": "C25", "title": "Closest approach point minimises the distance to the geometry centre along the track", "statement": "GetClosestApproachPoint returns the state on the track with the smallest distance to the centre of the geometry.", "quantifier": "every track and geometry", "why_tests_cant": "arbitrary polylines", "anchors": ["src/PROPOSAL/detail/PROPOSAL/Secondaries.cxx: GetClosestApproachPoint 239-267", "src/PROPOSAL/PROPOSAL/Secondaries.h"]}
{"id": "C26", "title": "HitGeometry is sound and complete for solid spheres", "statement": "HitGeometry reports true only if some point of the track polyline is in the geometry, and reports true whenever a track point or segment enters it in general position.", "quantifier": "every track and solid sphere", "why_tests_cant": "arbitrary polylines", "anchors": ["src/PROPOSAL/detail/PROPOSAL/Secondaries.cxx: HitGeometry 269-290"]}
{"id": "C27", "title": "Energy cut validation and evaluation", "statement": "Construction succeeds exactly for ecut > 0 and 0 < vcut <= 1 (JSON spelled infinity included, all keys required); the cut value is positive, at most vcut, non-increasing in energy, and clamped into the kinematic range it never leaves it.", "quantifier": "all cut parameters and energies", "why_tests_cant": "continuum of inputs, monotonicity", "anchors": ["src/PROPOSAL/detail/PROPOSAL/EnergyCutSettings.cxx 17-97"]}
{"id": "C28", "title": "Equal cuts have equal hashes", "statement": "Cut settings that compare equal have equal hash, but different randomisation flags share a hash although they compare unequal.", "quantifier": "all cut settings", "why_tests_cant": "relational claim over pairs", "anchors": ["src/PROPOSAL/detail/PROPOSAL/EnergyCutSettings.cxx 75-85, 99-104"]}
{"id": "C29", "title": "Continuous and stochastic losses tile the kinematic range", "statement": "For every energy the continuous part covers [v_min, v_cut] and the stochastic part [v_cut, v_max] with one common v_cut, so every allowed fractional loss is treated exactly once; without cut everything is stochastic; with ecut = inf and vcut = 1 nothing is.", "quantifier": "all energies, cuts and kinematic limits with v_min <= v_max", "why_tests_cant": "continuum; consistency of separately implemented code paths", "anchors": ["src/PROPOSAL/detail/PROPOSAL/EnergyCutSettings.cxx: GetCut 87-97", "src/PROPOSAL/detail/PROPOSAL/crosssection/CrossSectionDNDX/CrossSectionDNDX.cxx: GetIntegrationLimits 41-51", "src/PROPOSAL/detail/PROPOSAL/crosssection/CrossSectionDEDX/CrossSectionDEDXIntegral.cxx", "src/PROPOSAL/PROPOSAL/crosssection/CrossSection.h: build_dndx/dedx 72-196"]}
{"id": "C30", "title": "Kinematic limits are ordered and physical", "statement": "For every process and every energy above its threshold 0 <= v_min <= v_max <= 1, and the particle keeps at least its rest energy.", "quantifier": "all energies above threshold, all masses and nuclei", "why_tests_cant": "continuum, thresholds", "anchors": ["src/PROPOSAL/detail/PROPOSAL/crosssection/parametrization/*.cxx: GetKinematicLimits"]}
{"id": "C31", "title": "Component weights sum to one", "statement": "For every medium the reciprocal component weights sum to one, so macroscopic rates are convex combinations of the component rates.", "quantifier": "every medium with at least one atom and positive masses", "why_tests_cant": "arbitrary media", "anchors": ["src/PROPOSAL/PROPOSAL/crosssection/CrossSection.h: weight_component 67-70", "src/PROPOSAL/detail/PROPOSAL/medium/Medium.cxx"]}
{"id": "C32", "title": "Total rate is the sum of target rates", "statement": "For every cross section and energy the total dN/dx equals the sum of the per-target rates, and per-target sampling undoes the weight so that the sampled loss depends only on the fraction of the component rate.", "quantifier": "every medium, energy", "why_tests_cant": "consistency of three separately implemented code paths", "anchors": ["src/PROPOSAL/PROPOSAL/crosssection/CrossSection.h 276-364"]}
{"id": "C33", "title": "A cross-section multiplier rescales rates and nothing else", "statement": "With multiplier k all rates scale by k and the distribution of sampled losses is unchanged for k != 0.", "quantifier": "every cross section, multiplier, energy, rate fraction", "why_tests_cant": "relational claim over pairs of runs", "anchors": ["src/PROPOSAL/PROPOSAL/crosssection/CrossSectionMultiplier.h"]}
{"id": "C34", "title": "Loss sampling is inverse-CDF", "statement": "For non-negative rates with positive sum and a random number in (0,1) exactly one (process, target) is selected, the one whose cumulative interval contains random number times total rate, so its probability is its share of the rate; the residual rate handed to the process lies within (0, its rate].", "quantifier": "every rate list and random number", "why_tests_cant": "probability statement over all lists", "anchors": ["src/PROPOSAL/detail/PROPOSAL/propagation_utility/Interaction.cxx: SampleLoss 35-65, Rates 67-77"]}
{"id": "C35", "title": "Loss axis transformations are inverse bijections", "statement": "The interpolation coordinate transformations of the fractional loss and their inverses undo each other on [v_cut, v_max], are strictly monotone and stay in range.", "quantifier": "all 0 < v_cut < v_max < 1 and exponents", "why_tests_cant": "continuum", "anchors": ["src/PROPOSAL/detail/PROPOSAL/crosssection/CrossSectionDNDX/CrossSectionDNDXInterpolant.cxx 15-50"]}
{"id": "C36", "title": "Two-body decay conserves energy and momentum", "statement": "For every allowed two-body decay, every parent momentum and every isotropic direction the daughters' four-momenta add up to the parent's and the daughters are on shell.", "quantifier": "all masses m1 >= m2 + m3, all parent momenta and decay directions", "why_tests_cant": "continuum; rounding-free algebraic identity", "anchors": ["src/PROPOSAL/detail/PROPOSAL/decay/TwoBodyPhaseSpace.cxx: Decay 41-64", "src/PROPOSAL/detail/PROPOSAL/decay/DecayChannel.cxx: Boost 54-80, Momentum 83-106"]}
{"id": "C37", "title": "Kinematically forbidden decays are not performed", "statement": "A two-body decay into daughters heavier than the parent yields no momentum.", "quantifier": "all masses", "why_tests_cant": "negative radicand can turn positive again", "anchors": ["src/PROPOSAL/detail/PROPOSAL/decay/DecayChannel.cxx: Momentum 83-106"]}
{"id": "C38", "title": "Boost is a Lorentz transformation", "statement": "Boost preserves the invariant mass of the boosted particle, and boosting along any unit direction by beta gamma transforms energies with the standard formula.", "quantifier": "all masses, momenta, unit directions, boost parameters gamma >= 1 with gamma^2 - (beta gamma)^2 = 1", "why_tests_cant": "continuum", "anchors": ["src/PROPOSAL/detail/PROPOSAL/decay/DecayChannel.cxx: Boost 54-80"]}
{"id": "C39", "title": "Decay channel selection follows branching ratios", "statement": "SelectChannel returns the channel whose cumulative branching interval contains the random number, in increasing order of branching ratio; every channel with positive ratio is reachable; the stable channel is never selected away.", "quantifier": "every decay table and random number in (0,1)", "why_tests_cant": "arbitrary tables", "anchors": ["src/PROPOSAL/detail/PROPOSAL/decay/DecayTable.cxx: SelectChannel 108-130, addChannel 143-147"]}
{"id": "C40", "title": "Adding a decay channel keeps the existing channels", "statement": "After addChannel the table contains the new channel and all previously added ones.", "quantifier": "every sequence of addChannel calls", "why_tests_cant": "history dependent", "anchors": ["src/PROPOSAL/detail/PROPOSAL/decay/DecayTable.cxx: addChannel 143-147"]}
{"id": "C41", "title": "Compton secondaries conserve energy and momentum", "statement": "The scattered photon and recoil electron carry together the four-momentum of photon plus electron at rest; both directions are unit vectors.", "quantifier": "all photon energies, allowed losses, azimuths and directions", "why_tests_cant": "continuum", "anchors": ["src/PROPOSAL/detail/PROPOSAL/secondaries/parametrization/compton/NaivCompton.cxx"]}
{"id": "C42", "title": "Ionization secondaries conserve energy and momentum", "statement": "Primary and knock-on electron carry together the four-momentum of primary plus electron at rest.", "quantifier": "all energies, masses, allowed losses, azimuths and directions", "why_tests_cant": "continuum", "anchors": ["src/PROPOSAL/detail/PROPOSAL/secondaries/parametrization/ionization/NaivIonization.cxx 16-61"]}
{"id": "C43", "title": "Annihilation secondaries conserve energy and momentum", "statement": "The two photons carry together the four-momentum of positron plus electron at rest and the sampled energy fraction keeps both angles physical.", "quantifier": "all energies, all allowed rho, azimuths and directions", "why_tests_cant": "continuum", "anchors": ["src/PROPOSAL/detail/PROPOSAL/secondaries/parametrization/annihilation/HeitlerAnnihilation.cxx"]}
{"id": "C44", "title": "Secondary energies add up to the loss", "statement": "For bremsstrahlung, electron and muon pair production, photon pair production, photonuclear and weak processes the energies of the secondaries (with the surviving primary) add up to the primary energy, and pair particles have at least their rest mass when the loss exceeds twice that mass.", "quantifier": "all energies, losses and asymmetries in the sampled range", "why_tests_cant": "continuum", "anchors": ["src/PROPOSAL/detail/PROPOSAL/secondaries/parametrization/*"]}
{"id": "C45", "title": "Deflection keeps unit length and realises the requested angle", "statement": "Deflecting a unit direction by cos(phi) in [-1,1] and any azimuth yields a unit direction whose cosine with the old one is exactly cos(phi); (1,0) leaves it unchanged.", "quantifier": "all unit vectors (including the poles), angles", "why_tests_cant": "continuum, polar singularities", "anchors": ["src/PROPOSAL/detail/PROPOSAL/math/Cartesian3D.cxx: deflect 108-134"]}
{"id": "C46", "title": "Multiple scattering yields unit directions", "statement": "Mean and final directions after multiple scattering are unit vectors.", "quantifier": "all directions and sampled offsets", "why_tests_cant": "unbounded sampled offsets", "anchors": ["src/PROPOSAL/detail/PROPOSAL/scattering/multiple_scattering/Parametrization.cxx: ScatterInitialDirection 40-69"]}
{"id": "C47", "title": "Spherical and Cartesian coordinates convert back and forth", "statement": "Converting a vector to spherical coordinates and back gives the vector; zenith lies in [0,pi], azimuth in (-pi,pi].", "quantifier": "all vectors", "why_tests_cant": "continuum, singular points", "anchors": ["src/PROPOSAL/detail/PROPOSAL/math/Cartesian3D.cxx: GetSphericalCoordinates 140-150", "src/PROPOSAL/detail/PROPOSAL/math/Spherical3D.cxx 38-50"]}
{"id": "C48", "title": "Momentum and energy of a particle are consistent", "statement": "SetMomentum followed by GetMomentum returns the momentum for non-negative momenta and the energy is at least the mass; GetMomentum is NaN below the mass, and zero exactly at the mass.", "quantifier": "all masses and momenta", "why_tests_cant": "continuum", "anchors": ["src/PROPOSAL/detail/PROPOSAL/particle/Particle.cxx 108-118"]}
{"id": "C49", "title": "Polynomial evaluation, derivative, antiderivative and shift", "statement": "evaluate computes sum of a_k x^k; GetDerivative/GetAntiderivative are the formal ones (derivative undoes antiderivative); after shift(s) the polynomial evaluated at x equals the old one at x + s.", "quantifier": "all coefficient vectors, shifts and arguments", "why_tests_cant": "arbitrary degree", "anchors": ["src/PROPOSAL/detail/PROPOSAL/math/Function.cxx 46-98"]}
{"id": "C50", "title": "Copies of polynomials are independent", "statement": "Shifting a copy of a polynomial does not change the original.", "quantifier": "every polynomial and every sequence of operations on its copies", "why_tests_cant": "aliasing depends on history", "anchors": ["src/PROPOSAL/detail/PROPOSAL/math/Function.cxx: copy constructor 30, shift 55-80"]}
{"id": "C51", "title": "Root bracketing", "statement": "Bisection on a function with a sign change keeps a sign change in its bracket, halves it each step and returns a bracket within the requested tolerance; the Newton-Raphson solver never leaves its initial bracket.", "quantifier": "every function and bracket", "why_tests_cant": "arbitrary functions", "anchors": ["src/PROPOSAL/detail/PROPOSAL/math/MathMethods.cxx: NewtonRaphson 152-238, Bisection 240-262"]}
{"id": "C52", "title": "Streaming mean and variance", "statement": "After folding in any sequence of samples the running mean equals the arithmetic mean and the running variance equals the population variance of the samples.", "quantifier": "every finite sequence of samples", "why_tests_cant": "induction over the history", "anchors": ["src/PROPOSAL/detail/PROPOSAL/math/MathMethods.cxx: welfords_online_algorithm 398-403"]}
{"id": "C53", "title": "Truncated sampling stays in range and is monotone", "statement": "Sampling a truncated normal or exponential returns a value within the given limits that is monotone in the random number.", "quantifier": "all limits, widths and random numbers", "why_tests_cant": "continuum", "anchors": ["src/PROPOSAL/detail/PROPOSAL/math/MathMethods.cxx: SampleFromGaussian 405-413, SampleFromExponential 415-417"]}
{"id": "C54", "title": "Distance and grammage are inverse to each other", "statement": "For homogeneous and exponential density, the grammage over the distance corrected for a grammage is that grammage, and vice versa; grammage is additive and monotone in distance.", "quantifier": "all densities, positions, directions and grammages in range", "why_tests_cant": "continuum", "anchors": ["src/PROPOSAL/detail/PROPOSAL/density_distr/density_homogeneous.cxx", "src/PROPOSAL/detail/PROPOSAL/density_distr/density_exponential.cxx 42-75"]}
{"id": "C55", "title": "Polynomial density integrates the density it evaluates", "statement": "The grammage along a ray is the integral of the evaluated density along it.", "quantifier": "all coefficients, axes, rays", "why_tests_cant": "continuum", "anchors": ["src/PROPOSAL/detail/PROPOSAL/density_distr/density_polynomial.cxx 40-100"]}
{"id": "C56", "title": "Equal density distributions behave equally", "statement": "Two density distributions that compare equal evaluate to the same density everywhere.", "quantifier": "all pairs of distributions", "why_tests_cant": "relational claim", "anchors": ["src/PROPOSAL/detail/PROPOSAL/density_distr/density_distr.cxx: operator==", "src/PROPOSAL/PROPOSAL/density_distr/density_distr.h: Axis::operator=="]}
{"id": "C57", "title": "Registered media, components and particles are found by their key", "statement": "After construction, lookup by hash or type returns an object with that key, earlier registrations are never overwritten, and unknown keys raise an exception.", "quantifier": "every sequence of constructions", "why_tests_cant": "history dependent registries", "anchors": ["src/PROPOSAL/detail/PROPOSAL/medium/Medium.cxx", "src/PROPOSAL/detail/PROPOSAL/medium/Components.cxx", "src/PROPOSAL/detail/PROPOSAL/particle/ParticleDef.cxx"]}
{"id": "C58", "title": "Lookup by hash returns the medium that was registered", "statement": "GetMediumForHash(m.GetHash()) compares equal to m.", "quantifier": "every sequence of constructions", "why_tests_cant": "history dependent", "anchors": ["src/PROPOSAL/detail/PROPOSAL/medium/Medium.cxx: GetHash, GetMediumForHash, operator==", "src/PROPOSAL/detail/PROPOSAL/medium/Components.cxx"]}
{"id": "C59", "title": "Case-insensitive names form a consistent ordering", "statement": "The case-insensitive comparator is a strict weak ordering whose equivalence is equality up to case, so lookups in name maps are well defined.", "quantifier": "all pairs and triples of strings", "why_tests_cant": "order axioms over all strings", "anchors": ["src/PROPOSAL/detail/PROPOSAL/methods.cxx: case_insensitive_comp"]}
{"id": "C60", "title": "Propagation utility without optional parts", "statement": "A utility needs interaction, displacement and time calculators; without decay the decay energy is zero and no random number is drawn, without randomisation the energy is unchanged, without scattering directions are unchanged.", "quantifier": "every collection of calculators and every random stream", "why_tests_cant": "all combinations of optional parts", "anchors": ["src/PROPOSAL/detail/PROPOSAL/propagation_utility/PropagationUtility.cxx 80-183"]}
{"id": "C61", "title": "Continuous randomisation keeps the energy in range", "statement": "The randomised energy after a continuous step lies between the minimal energy and the initial energy.", "quantifier": "all energies, variances and random numbers", "why_tests_cant": "continuum", "anchors": ["src/PROPOSAL/PROPOSAL/propagation_utility/ContRandBuilder.h: EnergyRandomize 29-38"]}
{"id": "C62", "title": "Interaction and decay energies lie between lower limit and current energy", "statement": "The sampled interaction (decay) energy never exceeds the current energy and never falls below the lower energy limit ; the expected number of interactions (proper lifetimes) down to the sampled energy is minus the logarithm of the random number, so larger random numbers give earlier interactions (higher energies); with and without interpolation tables.", "quantifier": "all energies and random numbers", "why_tests_cant": "continuum", "anchors": ["src/PROPOSAL/detail/PROPOSAL/propagation_utility/InteractionBuilder.cxx 66-93", "src/PROPOSAL/detail/PROPOSAL/propagation_utility/DecayBuilder.cxx 27-35", "src/PROPOSAL/detail/PROPOSAL/propagation_utility/PropagationUtilityIntegral.cxx 18-37", "src/PROPOSAL/detail/PROPOSAL/propagation_utility/PropagationUtilityInterpolant.cxx 64-130"]}
{"id": "C63", "title": "Integration orientation", "statement": "Swapping the integration limits flips the sign of the result, equal limits give zero, in every integration method.", "quantifier": "all integrands and limits", "why_tests_cant": "arbitrary functions", "anchors": ["src/PROPOSAL/detail/PROPOSAL/math/Integral.cxx 34-141, 640-1061"]}
{"id": "C64", "title": "Neville extrapolation is exact on polynomials", "statement": "The polynomial extrapolation step of the Romberg integrator returns the value at the requested point of the unique interpolating polynomial.", "quantifier": "all node sets with distinct abscissae", "why_tests_cant": "arbitrary nodes", "anchors": ["src/PROPOSAL/detail/PROPOSAL/math/Integral.cxx: Interpolate 795-884"]}
{"id": "C65", "title": "Secondary calculators and deflection registries", "statement": "The last registered calculator for an interaction type is used, unknown types raise an exception when calculating, and a deflection-free scatterer draws no random numbers and does not deflect.", "quantifier": "every registration history", "why_tests_cant": "history dependent", "anchors": ["src/PROPOSAL/detail/PROPOSAL/secondaries/SecondariesCalculator.cxx", "src/PROPOSAL/PROPOSAL/scattering/Scattering.h"]}
{"id": "C66", "title": "A sphere or cylinder read from JSON keeps its stated inner radius", "statement": "A sphere (cylinder) constructed from a JSON object has exactly the outer radius and inner radius stated there; a missing inner radius means 0, a negative one or one above the outer radius is rejected.", "quantifier": "all radii in the configuration", "why_tests_cant": "continuum of configurations; tests use integral radii", "anchors": ["src/PROPOSAL/detail/PROPOSAL/geometry/Sphere.cxx 28-41", "src/PROPOSAL/detail/PROPOSAL/geometry/Cylinder.cxx 32-46"]}
{"id": "C67", "title": "Continuous randomisation is independent of the scattering", "statement": "Within one step the random number used to smear the continuous energy loss is not one of the numbers that determined the multiple scattering offsets of that step.", "quantifier": "every step of every run", "why_tests_cant": "statistical correlations are invisible to unit tests", "anchors": ["src/PROPOSAL/detail/PROPOSAL/Propagator.cxx 191-330", "src/PROPOSAL/PROPOSAL/propagation_utility/PropagationUtility.h"]}
{"id": "C68", "title": "Without scattering a step needs at most two trials", "statement": "If the medium density is invertible, no multiple scattering is active and the particle is inside its sector, AdvanceParticle settles after at most two trial steps.", "quantifier": "every state, sector set, density and random stream", "why_tests_cant": "loop bound over a continuum of states", "anchors": ["src/PROPOSAL/detail/PROPOSAL/Propagator.cxx 191-330"]}
{"id": "C69", "title": "HitGeometry detects hollow spheres", "statement": "HitGeometry reports true whenever a track segment passes through the wall of a hollow sphere, wherever the track ends.", "quantifier": "every track and hollow sphere", "why_tests_cant": "arbitrary polylines", "anchors": ["src/PROPOSAL/detail/PROPOSAL/Secondaries.cxx: HitGeometry 269-290", "src/PROPOSAL/detail/PROPOSAL/geometry/Sphere.cxx"]}
{"id": "C70", "title": "The lower limit of a set of cross sections is the smallest one", "statement": "CrossSectionVector::GetLowerLim returns the smallest of the lower energy limits of the cross sections; it needs at least one cross section.", "quantifier": "every list of cross sections", "why_tests_cant": "comparison with a reversed order over arbitrary lists", "anchors": ["src/PROPOSAL/PROPOSAL/crosssection/CrossSectionVector.h 24-33"]}
{"id": "C71", "title": "Tables begin where the tabulated quantity becomes positive", "statement": "The energy range of the tables for dN/dx, dE/dx and dE2/dx begins at an energy with a positive value, close to the threshold of the process; an exception is thrown only if no node has a positive value.", "quantifier": "every tabulated function with a threshold, every number of nodes", "why_tests_cant": "arbitrary functions; index arithmetic at the first node", "anchors": ["src/PROPOSAL/detail/PROPOSAL/crosssection/CrossSectionDNDX/AxisBuilderDNDX.cxx 7-26", "src/PROPOSAL/detail/PROPOSAL/crosssection/CrossSectionDEDX/AxisBuilderDEDX.cxx 13-29", "src/PROPOSAL/detail/PROPOSAL/crosssection/CrossSectionDE2DX/AxisBuilderDE2DX.cxx 13-27"]}
{"id": "C72", "title": "Splines interpolate their nodes", "statement": "A linear spline lies on the straight line between neighbouring nodes; linear and cubic splines take the given ordinates at the given abscissae.", "quantifier": "all node lists with at least two increasing abscissae", "why_tests_cant": "arbitrary node lists, search over pieces", "anchors": ["src/PROPOSAL/detail/PROPOSAL/math/Spline.cxx: evaluate 67-78, calculate_splines 195-295"]}
{"id": "C73", "title": "Cubic splines are natural and twice continuously differentiable", "statement": "Neighbouring pieces of a cubic spline agree in first and second derivative at their common knot, the second derivative vanishes at both ends.", "quantifier": "all node lists with at least two increasing abscissae", "why_tests_cant": "solution of a tridiagonal system of arbitrary size", "anchors": ["src/PROPOSAL/detail/PROPOSAL/math/Spline.cxx: Cubic_Spline::calculate_splines 236-295"]}
{"id": "C74", "title": "The antiderivative of a spline integrates it", "statement": "After Antiderivative(c) the spline has the value c at the first knot and, up to the last knot, its increase is the integral of the former spline.", "quantifier": "all splines, all arguments between first and last knot", "why_tests_cant": "integrals over an arbitrary number of pieces", "anchors": ["src/PROPOSAL/detail/PROPOSAL/math/Spline.cxx: Antiderivative 85-94"]}
{"id": "C75", "title": "The derivative of a spline is its slope", "statement": "After Derivative() the spline evaluates to the derivative of the former spline.", "quantifier": "all splines and arguments", "why_tests_cant": "continuum of arguments", "anchors": ["src/PROPOSAL/detail/PROPOSAL/math/Spline.cxx: Derivative 80-83"]}
{"id": "C76", "title": "Splines can be made from polynomials", "statement": "A spline constructed from polynomials and knots evaluates everywhere, beyond the ends with the outermost pieces, and has an antiderivative.", "quantifier": "all lists of pieces and knots", "why_tests_cant": "out-of-range reads do not fail deterministically", "anchors": ["src/PROPOSAL/detail/PROPOSAL/math/Spline.cxx: Spline(std::vector<Polynom>, std::vector<double>) 24-27"]}
{"id": "C77", "title": "Copies of spline densities are independent objects", "statement": "A spline density and its copy (or clone) can be used and destroyed in any order.", "quantifier": "all spline densities", "why_tests_cant": "memory errors need not show in a test", "anchors": ["src/PROPOSAL/detail/PROPOSAL/density_distr/density_splines.cxx 19-22", "src/PROPOSAL/PROPOSAL/density_distr/density_splines.h 47-50"]}
{"id": "C78", "title": "Density distributions can be read from JSON", "statement": "For every kind of density distribution there is a JSON object that describes it, and the constructed distribution has the stated parameters.", "quantifier": "all JSON values", "why_tests_cant": "absence of any accepted input cannot be shown by tests", "anchors": ["src/PROPOSAL/detail/PROPOSAL/density_distr/density_distr.cxx 19-36", "src/PROPOSAL/detail/PROPOSAL/density_distr/density_polynomial.cxx 30-34", "src/PROPOSAL/detail/PROPOSAL/math/Function.cxx 21-28"]}
{"id": "C79", "title": "Exponential density integrates the density it evaluates", "statement": "The grammage of an exponential density along a ray is the integral of the evaluated density along it.", "quantifier": "all axes, positions, directions and distances", "why_tests_cant": "integrals over a continuum of rays", "anchors": ["src/PROPOSAL/detail/PROPOSAL/density_distr/density_exponential.cxx 59-75", "src/PROPOSAL/detail/PROPOSAL/density_distr/density_distr.cxx 93-143"]}
{"id": "C80", "title": "Polynomial and spline densities find the distance for a grammage", "statement": "Correct of a polynomial or spline density returns the distance between 0 and the border whose grammage is the requested one, and throws exactly if the grammage to the border is too small.", "quantifier": "all densities, rays, grammages and borders", "why_tests_cant": "iterative root finding with a supplied derivative", "anchors": ["src/PROPOSAL/detail/PROPOSAL/density_distr/density_polynomial.cxx 48-83", "src/PROPOSAL/detail/PROPOSAL/density_distr/density_splines.cxx 53-84"]}
{"id": "C81", "title": "Pair particles from photons have at least their rest energy", "statement": "For every energy share between the kinematic limits both particles of an electron or muon pair get at least their rest energy.", "quantifier": "all photon energies above threshold, all shares between the limits", "why_tests_cant": "continuum of energies and shares", "anchors": ["src/PROPOSAL/detail/PROPOSAL/crosssection/parametrization/PhotoMuPairProduction.cxx 12-30", "src/PROPOSAL/detail/PROPOSAL/crosssection/parametrization/PhotoPairProduction.cxx 24-44"]}
{"id": "C82", "title": "Leptonic decays conserve energy and momentum", "statement": "A leptonic decay of a particle into a lepton and two massless neutrinos never throws; the products are on their mass shells, start at the decay point and carry together the four-momentum of the parent.", "quantifier": "all parents, lepton masses below the parent mass, random numbers", "why_tests_cant": "continuum of energies and random numbers, an iterative root search inside", "anchors": ["src/PROPOSAL/detail/PROPOSAL/decay/LeptonicDecayChannel.cxx 60-175"]}
{"id": "C83", "title": "The energy fraction of a leptonic decay is drawn from the stated spectrum", "statement": "The density used by the root search is the derivative of the integrated rate; the rate is strictly increasing over the allowed fractions, so each random number has exactly one fraction; the search returns an allowed fraction for every random number.", "quantifier": "all lepton masses below the parent mass and all random numbers in [0,1]", "why_tests_cant": "statement about a function on a continuum and an iterative search", "anchors": ["src/PROPOSAL/detail/PROPOSAL/decay/LeptonicDecayChannel.cxx 40-110"]}
{"id": "C84", "title": "Many body decays conserve energy and momentum", "statement": "The products of a many body decay are on their mass shells, start at the decay point and carry together the four-momentum of the parent.", "quantifier": "all parents, any number of daughters whose masses sum up to at most the parent mass, all random numbers", "why_tests_cant": "arbitrary number of daughters, a loop over rejected events", "anchors": ["src/PROPOSAL/detail/PROPOSAL/decay/ManyBodyPhaseSpace.cxx 106-184, 293-334"]}
{"id": "C85", "title": "Many body decays follow the matrix element", "statement": "Every event is accepted with a probability proportional to its phase space weight times the matrix element, with the same factor for all events.", "quantifier": "all masses, matrix elements and random numbers", "why_tests_cant": "a probability over a continuum of events", "anchors": ["src/PROPOSAL/detail/PROPOSAL/decay/ManyBodyPhaseSpace.cxx 119-133, 234-291"]}
{"id": "C86", "title": "Equal decay channels decay equally", "statement": "Channels that compare equal give the same products for the same random numbers.", "quantifier": "all channels", "why_tests_cant": "all pairs of channels", "anchors": ["src/PROPOSAL/detail/PROPOSAL/decay/StableChannel.cxx 21-29", "src/PROPOSAL/detail/PROPOSAL/decay/TwoBodyPhaseSpace.cxx 26-38", "src/PROPOSAL/detail/PROPOSAL/decay/LeptonicDecayChannel.cxx 51-65", "src/PROPOSAL/detail/PROPOSAL/decay/ManyBodyPhaseSpace.cxx 74-103"]}
{"id": "C87", "title": "Unstable built-in particles have physical decay tables", "statement": "Every channel of a built-in particle with a finite lifetime conserves charge and lepton numbers and is kinematically open; the decay products of a track carry energy, momentum, charge and lepton numbers of the decaying particle.", "quantifier": "all built-in particles, channels, tracks and random numbers", "why_tests_cant": "all channels at once, continuum of random numbers", "anchors": ["src/PROPOSAL/detail/PROPOSAL/particle/ParticleDef.cxx 25-33, 324-478, 569-575", "src/PROPOSAL/detail/PROPOSAL/Secondaries.cxx 52-71"]}
{"id": "C88", "title": "Annihilation photons follow the cross section", "statement": "The share of the differential cross section below the sampled energy share of an annihilation photon is the random number, up to the precision of the root search.", "quantifier": "all positron energies and random numbers", "why_tests_cant": "a distribution over a continuum, at energies no test reaches", "anchors": ["src/PROPOSAL/detail/PROPOSAL/secondaries/parametrization/annihilation/HeitlerAnnihilation.cxx 6-35"]}
{"id": "C89", "title": "Sauter sampling inverts its distribution", "statement": "The sampled cosine of an electron or positron from pair production lies in [-1, 1], its share of the Sauter distribution is the random number, and the direction encloses this angle with the photon.", "quantifier": "all energies above the rest energy, all random numbers in [0, 1]", "why_tests_cant": "a distribution over a continuum", "anchors": ["src/PROPOSAL/PROPOSAL/secondaries/parametrization/photopairproduction/SauterSampling.h 12-38"]}
{"id": "C90", "title": "Candidates for bremsstrahlung angles invert their distribution", "statement": "The candidates for the polar angle of a bremsstrahlung photon lie between 0 and pi, and their share of the candidate distribution is the random number.", "quantifier": "all energies, all random numbers in [0, 1]", "why_tests_cant": "a distribution over a continuum", "anchors": ["src/PROPOSAL/detail/PROPOSAL/secondaries/parametrization/bremsstrahlung/BremsKochMotz.cxx 10-13"]}
{"id": "C91", "title": "Media by name", "statement": "CreateMedium looks a medium up by name without regard to upper and lower case: every name of the table gives the medium listed with it, in whatever case it is written, and any other text is rejected with an exception instead of giving some medium.", "quantifier": "all strings of ASCII characters of any length, every name of the table", "why_tests_cant": "The lookup runs over a map ordered by a case-insensitive comparison; tests look up a handful of names, while rejection of every other string and case is a statement about all strings.", "anchors": ["src/PROPOSAL/detail/PROPOSAL/medium/MediumFactory.cxx 25-36", "src/PROPOSAL/PROPOSAL/medium/MediumFactory.h 9-29"]}
{"id": "C92", "title": "Centered text", "statement": "Helper::Centered returns a line that contains the given text once with the same number of fill characters on both sides up to one character, and never cuts the text.", "quantifier": "all widths, all texts, all fill characters", "why_tests_cant": "Widths smaller than the text and odd differences are integer corner cases over an unbounded domain.", "anchors": ["src/PROPOSAL/detail/PROPOSAL/methods.cxx 42-53"]}
{"id": "C93", "title": "Averages over the components of a medium", "statement": "The numbers a Medium derives from its components (sum of charge and nucleons, mass density, molecule density, average mass per charge, radiation length) do not depend on the order of the components, scale with the density correction as documented, and lie between the smallest and the largest value of the components where they are averages.", "quantifier": "all lists of components with positive numbers of atoms and any charges, all densities", "why_tests_cant": "Built-in media are a finite sample; user defined media can have any composition.", "anchors": ["src/PROPOSAL/detail/PROPOSAL/medium/Medium.cxx 64-194, 491-531", "src/PROPOSAL/detail/PROPOSAL/medium/Components.cxx 33-66"]}
{"id": "C94", "title": "Particle types have a definition", "statement": "Every value of ParticleType that a user can name has a particle definition that can be looked up by this value, and the definition found carries this value as its type.", "quantifier": "all values of the enumeration and all sequences of further registrations of particle definitions", "why_tests_cant": "The table of definitions and the enumeration are kept by hand in two places; only an exhaustive comparison together with all later registrations covers it.", "anchors": ["src/PROPOSAL/detail/PROPOSAL/particle/ParticleDef.cxx 74-88, 255-280"]}
{"id": "C95", "title": "Integration methods give the integral", "statement": "Integral::Integrate gives the integral of the function between the limits for all its methods (plain, opened, with a power substitution, logarithmic, logarithmic with a power substitution), whenever the Romberg integration of the transformed function is exact: the substitutions and limits of the methods belong together.", "quantifier": "all functions, all limits in either order, all powers of substitution, all methods, all earlier uses of the object", "why_tests_cant": "Tests compare a few integrals with known values; a wrong weight or limit for another power or sign stays unnoticed.", "anchors": ["src/PROPOSAL/detail/PROPOSAL/math/Integral.cxx 34-69, 593-634, 1066-1464"]}
{"id": "C96", "title": "Upper limit of an integral for a random number", "statement": "After IntegrateWithRandomRatio, GetUpperLimit returns the limit at which the integral has reached the given part of the whole (non-negative ratio) or the given value (negative ratio), and it never leaves the interval between the limits.", "quantifier": "all functions, limits, ratios and powers of substitution, all errors of the numerical integration for the range", "why_tests_cant": "Sampled energies and losses depend on it for every random number; tests try few random numbers and integrands.", "anchors": ["src/PROPOSAL/detail/PROPOSAL/math/Integral.cxx 74-303, 1211-1327"]}
{"id": "C97", "title": "Romberg integration is exact on polynomials", "statement": "RombergIntegrateClosed and RombergIntegrateOpened return the exact integral of every polynomial up to a degree given by their order, for any interval.", "quantifier": "all polynomials up to the degree, all intervals, all orders and precisions", "why_tests_cant": "A statement on a space of functions and all intervals.", "anchors": ["src/PROPOSAL/detail/PROPOSAL/math/Integral.cxx 640-1061"]}
{"id": "C98", "title": "Romberg integration stays in its arrays", "statement": "The Romberg integrations never read or write beyond the arrays allocated in the constructor.", "quantifier": "all orders, numbers of steps, precisions and integrands", "why_tests_cant": "Depends on how many steps the integrand needs until the precision is reached.", "anchors": ["src/PROPOSAL/detail/PROPOSAL/math/Integral.cxx 305-460, 889-1061"]}
{"id": "C99", "title": "Energy after a length and length to an energy belong together", "statement": "The length of a continuous step between two energies is positive and additive over intermediate energies, the energy after a given length is the one whose step has this length (going there and back gives the energy), and a length beyond the range of the particle is an error.", "quantifier": "all positive continuous energy losses, all energies and lengths", "why_tests_cant": "continuum of energies and energy loss functions; tests compare a few values with a tolerance", "anchors": ["src/PROPOSAL/detail/PROPOSAL/propagation_utility/DisplacmentBuilder.cxx 28-38", "src/PROPOSAL/detail/PROPOSAL/propagation_utility/Displacment.cxx 6-13", "src/PROPOSAL/detail/PROPOSAL/propagation_utility/PropagationUtilityIntegral.cxx 18-37"]}
{"id": "C100", "title": "Nothing is faster than light", "statement": "The exact elapsed time of a continuous step is at least the length of the step divided by the speed of light, strictly more for a massive particle, and equal to the approximate time for a massless one.", "quantifier": "all masses, energies above the mass, positive continuous energy losses and densities", "why_tests_cant": "an inequality between two integrals of arbitrary functions", "anchors": ["src/PROPOSAL/detail/PROPOSAL/propagation_utility/TimeBuilder.cxx 32-76"]}
{"id": "C101", "title": "Mean free path", "statement": "The mean free path times the total rate is one, it is infinite where nothing interacts and below the begin of the rate table, and with a table it is never negative or zero.", "quantifier": "all rates, tables and energies", "why_tests_cant": "arbitrary tables", "anchors": ["src/PROPOSAL/detail/PROPOSAL/propagation_utility/InteractionBuilder.cxx 80-93"]}
{"id": "C102", "title": "Geometries from JSON equal those of the constructors", "statement": "CreateGeometry gives the shape named in the configuration, in whatever case it is written, with the stated hierarchy, centre and lengths: it has the same distances as the object of the constructor and compares equal to it, and configurations without a known shape or an origin are rejected.", "quantifier": "all configurations", "why_tests_cant": "Configurations are texts with numbers from a continuum; equality is a statement on all pairs.", "anchors": ["src/PROPOSAL/detail/PROPOSAL/geometry/GeometryFactory.cxx 38-55", "src/PROPOSAL/detail/PROPOSAL/geometry/Geometry.cxx 44-84", "src/PROPOSAL/detail/PROPOSAL/geometry/Box.cxx 21-55"]}
{"id": "C103", "title": "Ionization deflects like an elastic collision", "statement": "The deflection of the naive ionization is the one of an elastic collision with an electron at rest: the missing momentum belongs to an electron with the missing energy. It is a number for every loss within the kinematic limits, and it equals the deflection of the primary among the secondaries.", "quantifier": "all masses, energies, losses within the limits, directions and random numbers", "why_tests_cant": "Four-momentum conservation is an equation over a continuum of energies and losses; tests compare single values.", "anchors": ["src/PROPOSAL/detail/PROPOSAL/scattering/stochastic_deflection/ionization/IonizNaive.cxx", "src/PROPOSAL/detail/PROPOSAL/secondaries/parametrization/ionization/NaivIonization.cxx"]}
{"id": "C104", "title": "Bremsstrahlung angles are sampled from the stated density", "statement": "The angle of Tsai's bremsstrahlung is at least 0, grows with the random number, is bounded, balances the transverse momentum of the photon and is the inverse of the distribution function of s / (1 + s^2)^2; the azimuth covers the circle evenly.", "quantifier": "all masses, energies, losses and random numbers in [0, 1]", "why_tests_cant": "A statement about an integral for all random numbers.", "anchors": ["src/PROPOSAL/detail/PROPOSAL/scattering/stochastic_deflection/bremsstrahlung/BremsTsaiApproximation.cxx"]}
{"id": "C105", "title": "Photonuclear angles are sampled within their kinematic limits", "statement": "The deflection by a photonuclear interaction is an angle between 0 and pi for every loss within the kinematic limits of the photonuclear parametrizations; the momentum transfer is sampled by inverting its distribution function.", "quantifier": "all particles, energies, losses within the limits and random numbers", "why_tests_cant": "A domain statement for a composition of roots, logarithms and an arc cosine; tests use muons.", "anchors": ["src/PROPOSAL/detail/PROPOSAL/scattering/stochastic_deflection/photonuclear/PhotoBorogPetrukhin.cxx", "src/PROPOSAL/detail/PROPOSAL/crosssection/parametrization/Photonuclear.cxx"]}
{"id": "C106", "title": "Van Ginneken's angles have the published spread", "statement": "The angles of the parametrizations of van Ginneken (pair production, nuclear interaction, bremsstrahlung) follow the distribution 1 - exp(-(t / rms)^2) with the published rms in MeV, are numbers between 0 and pi for random numbers in [0, 1), and with the same random numbers a larger loss never deflects less.", "quantifier": "all energies, losses, charges and random numbers", "why_tests_cant": "The monotony joins three branches of a parametrization; a distribution is a statement on all random numbers.", "anchors": ["src/PROPOSAL/detail/PROPOSAL/scattering/stochastic_deflection/epairproduction/EpairGinneken.cxx", "src/PROPOSAL/detail/PROPOSAL/scattering/stochastic_deflection/photonuclear/PhotoGinneken.cxx", "src/PROPOSAL/detail/PROPOSAL/scattering/stochastic_deflection/bremsstrahlung/BremsGinneken.cxx"]}
{"id": "C107", "title": "Van Ginneken's bremsstrahlung always gives an angle", "statement": "The deflection after a bremsstrahlung is an angle for every loss that leaves kinetic energy; no exception is thrown.", "quantifier": "all masses, energies, losses and random numbers", "why_tests_cant": "The exception occurs in a tiny interval of losses at the boundary between two branches.", "anchors": ["src/PROPOSAL/detail/PROPOSAL/scattering/stochastic_deflection/bremsstrahlung/BremsGinneken.cxx"]}
{"id": "C108", "title": "Highland's multiple scattering", "statement": "The characteristic angle is a number, at least 0, grows with the grammage, falls with the energy, is proportional to the charge and has Highland's value 13.6 MeV / (beta p) sqrt(x) (1 + 0.088 log10 x). The offsets have the covariance of a Gaussian multiple scattering (1, 1/3, 1/2 of the squared angle), are symmetric, and are numbers for random numbers in [0, 1).", "quantifier": "all particles, media, grammages, energies, random numbers", "why_tests_cant": "Monotony and moments are statements about all inputs and random numbers.", "anchors": ["src/PROPOSAL/detail/PROPOSAL/scattering/multiple_scattering/Highland.cxx", "src/PROPOSAL/detail/PROPOSAL/scattering/multiple_scattering/HighlandIntegral.cxx", "src/PROPOSAL/detail/PROPOSAL/math/MathMethods.cxx 14-77"]}
{"id": "C109", "title": "Scattering objects can be compared and cloned", "statement": "Comparing two scattering objects is defined for any two objects, symmetric, and true exactly for objects that scatter equally; clones work independently of their original.", "quantifier": "all pairs of scattering objects, all orders of cloning and destruction", "why_tests_cant": "Undefined behaviour depends on lifetimes of objects and on pairs of classes.", "anchors": ["src/PROPOSAL/detail/PROPOSAL/scattering/multiple_scattering/Highland.cxx", "src/PROPOSAL/detail/PROPOSAL/scattering/multiple_scattering/Moliere.cxx", "src/PROPOSAL/detail/PROPOSAL/scattering/multiple_scattering/Parametrization.cxx", "src/PROPOSAL/PROPOSAL/scattering/multiple_scattering/HighlandIntegral.h"]}
{"id": "C110", "title": "Moliere's parameter solves its equation", "statement": "The parameter B of Moliere's theory found by the iteration solves B - ln B = ln(chi_c^2 / chi_a^2) + 1 - 2 gamma whenever a solution of at least 4.5 exists; otherwise the layer is too thin and there is no scattering.", "quantifier": "all energies, media and grammages", "why_tests_cant": "The iteration converges or diverges depending on a continuous parameter; the spurious results occur in narrow ranges of grammage.", "anchors": ["src/PROPOSAL/detail/PROPOSAL/scattering/multiple_scattering/Moliere.cxx 15-68"]}
{"id": "C111", "title": "Moliere objects do not remember earlier calls", "statement": "A Moliere object gives the same offsets after any sequence of calls as a new object and compares equal to a new object; a single component without a valid B switches the scattering off.", "quantifier": "all sequences of calls, all media", "why_tests_cant": "Histories of calls are unbounded.", "anchors": ["src/PROPOSAL/detail/PROPOSAL/scattering/multiple_scattering/Moliere.cxx 15-95, 112-211"]}
{"id": "C112", "title": "Moliere angles follow Moliere's distribution", "statement": "The sampled angle inverts the distribution function, which is the integral of the density for any table of coefficients; the angles are symmetric about 0 with median 0, and the search starts from B of the component with the largest weight.", "quantifier": "all random numbers, media, energies and grammages", "why_tests_cant": "Distribution functions are statements about all angles.", "anchors": ["src/PROPOSAL/detail/PROPOSAL/scattering/multiple_scattering/Moliere.cxx 112-185, 225-420"]}
{"id": "C113", "title": "Scattering from a configuration", "statement": "make_scattering gives the classes named in the configuration, in any case of letters, with \"Default\" plus the name of an interaction type for its default deflection; other names are rejected; of several deflections of a type the last one acts; the factors of the configuration act on the angles.", "quantifier": "all configurations", "why_tests_cant": "Configurations are texts of any length in any case, with factors from a continuum.", "anchors": ["src/PROPOSAL/PROPOSAL/scattering/ScatteringFactory.h 15-84", "src/PROPOSAL/PROPOSAL/scattering/multiple_scattering/ScatteringFactory.h", "src/PROPOSAL/PROPOSAL/scattering/stochastic_deflection/ScatteringFactory.h", "src/PROPOSAL/PROPOSAL/scattering/ScatteringMultiplier.h 11-34", "src/PROPOSAL/PROPOSAL/DefaultFactory.h 38-54"]}
{"id": "C114", "title": "A sampled loss carries the requested rate", "statement": "CrossSectionDNDX::GetUpperLimit(energy, rate) returns a relative loss v between the lower limit of the stochastic losses and the largest possible loss, such that the cross section integrated from the lower limit up to v is the rate; Calculate(energy, v) gives this rate back, Calculate(energy) is the integral over all losses, and a larger rate gives a larger loss. This holds for all kinds of processes, although they integrate over the loss, its logarithm, its inverse or the logarithm of the remaining energy, and for rates taken from tables as for rates by integration.", "quantifier": "for all differential cross sections, limits of the losses and cuts, energies and rates up to the total one", "why_tests_cant": "Tests compare rates and losses with stored values of a few processes and energies; they do not relate the loss to the integral, and do not reach limits near zero or close to each other.", "anchors": ["src/PROPOSAL/detail/PROPOSAL/crosssection/CrossSectionDNDX/CrossSectionDNDXIntegral.cxx:18-159", "src/PROPOSAL/detail/PROPOSAL/crosssection/CrossSectionDNDX/CrossSectionDNDXInterpolant.cxx:63-120", "src/PROPOSAL/PROPOSAL/crosssection/CrossSectionDNDX/CrossSectionDNDXInterpolant.h:67-119"]}
{"id": "C115", "title": "Compton scattering follows Klein and Nishina", "statement": "ComptonKleinNishina's differential cross section is, for every loss, the Klein-Nishina cross section per solid angle of the scattering angle that belongs to the loss, times the density of that angle and the number of electrons per gram. The kinematic limits are exactly the losses some angle belongs to. The cross section is positive there, tends to the Thomson cross section for small photon energies, and its integral is the known closed form.", "quantifier": "for every component, every photon energy and every loss between the limits", "why_tests_cant": "A test compares a few tabulated values; a wrong power or sign in one term can stay inside the tolerance at the tested energies.", "anchors": ["src/PROPOSAL/detail/PROPOSAL/crosssection/parametrization/Compton.cxx:19-58"]}
{"id": "C116", "title": "The annihilation rate belongs to the sampled photon energies", "statement": "AnnihilationHeitler's rate of a component is the integral of Heitler's differential cross section over exactly the photon energies from which the annihilation products are sampled, the sampled fraction distributes according to that density, and the rate is positive above the mass and 0 at or below it. The rate of a medium is the sum over its components.", "quantifier": "for every particle mass, medium, component and energy", "why_tests_cant": "Rate and sampled energies come from two files with two separately written formulas; tests compare each with tables but not with each other.", "anchors": ["src/PROPOSAL/detail/PROPOSAL/crosssection/parametrization/Annihilation.cxx:34-65", "src/PROPOSAL/detail/PROPOSAL/secondaries/parametrization/annihilation/HeitlerAnnihilation.cxx:10-60"]}
{"id": "C117", "title": "The total ionization loss does not depend on the cut", "statement": "Moving the cut of an ionization cross section moves energy between continuous and stochastic losses without changing the total: raising the cut from v1 to v2 adds to dE/dx exactly E times the integral of v dsigma/dv from v1 to v2, for Moller, Bhabha and Bethe-Bloch-Rossi, provided parametrization and cross section have the same cut and the restricted loss is positive. Moller's and Bhabha's cross sections are positive for every loss, Moller's is the same for both outgoing electrons.", "quantifier": "for every medium, energy above the mass and every two cuts between the kinematic limits", "why_tests_cant": "The restricted loss is a closed formula and the cross section another one; tests fix one cut and compare tables, so a mistake in either is only seen at the tabulated cut.", "anchors": ["src/PROPOSAL/detail/PROPOSAL/crosssection/parametrization/Ionization.cxx:80-217", "src/PROPOSAL/detail/PROPOSAL/crosssection/parametrization/Ionization.cxx:255-345", "src/PROPOSAL/detail/PROPOSAL/crosssection/parametrization/Ionization.cxx:383-467", "src/PROPOSAL/detail/PROPOSAL/crosssection/CrossSectionDEDX/CrossSectionDEDXIntegral.cxx:67-104"]}
{"id": "C118", "title": "The photo effect has its threshold, edge and high-energy behaviour", "statement": "The cross section of the photo effect is positive above the binding energy of the innermost shell and 0 below; just above the edge it has Stobbe's value (1024 pi^2 / 3) e^-4 r_e^2 / (alpha^3 Z^2), at high energies it falls with 1 / E with Sauter's coefficient, the correction factor is continuous up to 1e-8 at its switch; the rate of a medium is the sum of the rates of its atoms, positive exactly above the lower energy limit, and the rate of a single target is the entry of the list of all targets.", "quantifier": "all energies, all media", "why_tests_cant": "Limits at the edge and at infinity are statements about all energies; a test at some energies does not see them.", "anchors": ["src/PROPOSAL/detail/PROPOSAL/crosssection/parametrization/Photoeffect.cxx:18-112"]}
{"id": "C119", "title": "Photoproduction: threshold, positivity, shadowing, rates", "statement": "Photoproduction starts exactly at the energy at which the centre-of-mass energy suffices for a nucleon and a pion: every parametrization gives 0 below and a positive nucleon cross section from there on, so GetLowerEnergyLim of a medium is the energy from which the total rate is positive. The shadowing factor lies between 0 and 1 (no shadowing for hydrogen), so an atom has between a quarter and the full cross section of its nucleons, never 0/0; the rate of a medium is N_A over the molecular weight times the sum over the atoms. The fits have their published shapes: minimum of Bezrukov-Bugaev and of Caldwell, W-dependence of Zeus, peak and width of Heck's resonances. Kokoulin's pieces meet within 0.02 microbarn at 17 GeV but jump by 1 microbarn at 200 GeV.", "quantifier": "for all photon energies, components, media and interpolation tables of Rhode that are positive", "why_tests_cant": "the shadowing bounds and the equivalence of threshold and lower limit hold for all energies and nuclei; tests compare stored numbers of a few nuclei", "anchors": ["src/PROPOSAL/detail/PROPOSAL/crosssection/parametrization/Photoproduction.cxx:19-289"]}
{"id": "C120", "title": "Photonuclear cross sections of real photons are positive and complete", "statement": "The photonuclear differential cross section (Zeus, Bezrukov-Bugaev, Kokoulin, Rhode) within the kinematic limits is the flux of virtual photons integrated over all virtualities with the two propagator forms plus mass terms, times the nucleon cross section of a real photon of the lost energy, the shadowing of photoproduction, the number of nucleons and the squared charge. The lower kinematic limit is the threshold of photoproduction. It is positive for electrons, muons and pions; for tau leptons on hydrogen it is negative for all losses of half the energy or more. The hard component is a polynomial in log10(v) over v, added per nucleon, zero below 100 GeV or v < 1e-7.", "quantifier": "for all particles, charges, atoms, energies and losses", "why_tests_cant": "the sign and the equality with the integral over virtualities hold for all losses and masses; tests compare stored values", "anchors": ["src/PROPOSAL/detail/PROPOSAL/crosssection/parametrization/PhotoRealPhotonAssumption.cxx:45-106", "src/PROPOSAL/detail/PROPOSAL/crosssection/parametrization/Photonuclear.cxx:41-91"]}
{"id": "C121", "title": "Weak interactions take the sum over the nucleons", "statement": "The differential cross section of the weak interaction is not negative, depends only on the sign of the charge of the lepton (negative ones take the antineutrino tables, others the neutrino tables) and per mass is that of protons and neutrons in the proportion of the atom; since a mass contains the same number of nucleons in every medium, equal proton and neutron tables must give a rate that is the same in every medium.", "quantifier": "for all tables, charges, atoms, media, energies and losses", "why_tests_cant": "the scaling with the composition of arbitrary media is a relation between cross sections of different media; tests compare stored values of one medium", "anchors": ["src/PROPOSAL/detail/PROPOSAL/crosssection/parametrization/WeakInteraction.cxx:40-85"]}
{"id": "C122", "title": "Muon pairs are produced by every particle above the limit", "statement": "The differential cross section of muon pair production by a charged particle is the integral over the asymmetry of the two muons of the formula of Kelner, Kokoulin and Petrukhin, taken between zero and the largest asymmetry 1 - 2 m_mu/(v E). The integrand is even in the asymmetry and in the charge, never negative, and positive for all asymmetries below the largest one, so the cross section is positive for all losses above 2 m_mu/E and zero below. It depends on the nucleus through charge and mass number.", "quantifier": "for all particles, charges, atoms, energies and losses", "why_tests_cant": "positivity up to the kinematic limit for all energies, losses and atoms; tests compare stored values of a muon", "anchors": ["src/PROPOSAL/detail/PROPOSAL/crosssection/parametrization/MupairProduction.cxx:34-153"]}
{"id": "C123", "title": "Photons produce muon pairs symmetrically within the limits", "statement": "The differential cross section of the production of a muon pair by a photon is symmetric in the two muons and never negative; the kinematic limits are exactly the fractions whose momentum transfer is at most m_mu/sqrt(e); at and outside of the limits the cross section is zero, so the integral over the limits is the integral over all fractions; at a fixed fraction it grows with the energy of the photon and tends to the completely screened cross section with the spectrum 1 - 4/3 x (1 - x).", "quantifier": "for all atoms, photon energies and fractions", "why_tests_cant": "the limits, the monotonicity and the limit of high energies concern all energies and fractions; tests compare stored values", "anchors": ["src/PROPOSAL/detail/PROPOSAL/crosssection/parametrization/PhotoMuPairProduction.cxx:11-73"]}
{"id": "C124", "title": "The dilogarithm is accurate everywhere", "statement": "dilog(x) is the real part of the dilogarithm, minus the integral from 0 to x of log|1-t|/t, to 3e-15 for every real x: the seven cases transform the argument to the interval from 0 to 1/2 by identities of the dilogarithm, and there the quotient of the two polynomials deviates by less than 2.5e-15. (The rounding of double arithmetic is not included.)", "quantifier": "for all real arguments", "why_tests_cant": "an error bound over the whole real line cannot be measured at finitely many points", "anchors": ["src/PROPOSAL/detail/PROPOSAL/math/MathMethods.cxx:78-150"]}
{"id": "C125", "title": "Photons make electron pairs with the cross sections of Tsai and of Koch and Motz", "statement": "For PhotoPairTsai the structure functions of every element tend to those without screening (4 log(m/delta) - 2) at large and to the radiation logarithms of complete screening at small momentum transfers, so that DifferentialCrossSection at high energies becomes 4 alpha r_e^2 [(1 - 4/3 x(1-x)) (Z^2 (L - f) + Z L') - x(1-x) (Z^2 + Z)/9] per atom; it is defined and nonnegative within the kinematic limits and undefined exactly at the lower one. For PhotoPairKochMotz the shares of electron and positron are symmetric, up to 50 MeV the integral over all shares is the tabulated total cross section, and above it the value tends to complete screening. The claim fails for lithium and beryllium (wrong screening radius in two places: the cross section of lithium at four electron masses is more than a thousand times the formula), for negative values of Koch-Motz that are kept, and for a constant of Butcher and Messel.", "quantifier": "all elements, energies, shares, tables of total cross sections and suppression factors", "why_tests_cant": "tests compare a few numbers computed by the code itself and do not contain lithium or beryllium; limits over all energies and elements cannot be sampled", "anchors": ["src/PROPOSAL/detail/PROPOSAL/crosssection/parametrization/PhotoPairProduction.cxx:23-338"]}
{"id": "C126", "title": "Bremsstrahlung: sign, limits and radiation length", "statement": "For every bremsstrahlung parametrization the differential cross section per mass is the classical prefactor (alpha / v) (2 Z z^2 r_e m_e / m)^2 times a spectrum that has the documented limits: at high energies and for soft photons it tends to the completely screened spectrum with the logarithms of the parametrization, of which the size of the nucleus is subtracted; it is positive within the kinematic limits. With complete screening the average loss per path of an electron is its energy over the radiation length of the medium, within two percent.", "quantifier": "every particle mass and charge, every element up to charge 118, every energy and every fraction of it within the kinematic limits, every medium", "why_tests_cant": "The limits are reached only asymptotically and the signs must hold on a continuum of energies, fractions and elements; the integration tests compare with tables made by the same formulas, so that a negative cross section near a kinematic limit is reproduced, not noticed.", "anchors": ["src/PROPOSAL/detail/PROPOSAL/crosssection/parametrization/Bremsstrahlung.cxx:47-68", "src/PROPOSAL/detail/PROPOSAL/crosssection/parametrization/Bremsstrahlung.cxx:84-113", "src/PROPOSAL/detail/PROPOSAL/crosssection/parametrization/Bremsstrahlung.cxx:126-427", "src/PROPOSAL/detail/PROPOSAL/crosssection/parametrization/Bremsstrahlung.cxx:467-564"]}
{"id": "C127", "title": "The suppression of bremsstrahlung and photon pair production in dense media has its physical limits", "statement": "For every atom of the periodic table and every medium with positive densities, the factor that BremsLPM and PhotoPairLPM multiply onto a differential cross section is positive and below 2, is below 1 wherever its parameter s' is at least 1 (64 rho E (1-v) <= eLpm v, and 64 rho E x (1-x) <= eLpm), is bounded by 2.67 sqrt(eLpm v / (rho E (1-v))) and so tends to 0 at high energies, tends to 1 as the density correction tends to 0, and for bremsstrahlung tends to 0 for soft photons. The function xi of it is continuous. A medium with k times the density gives the factor of the original medium for k times the density correction. With complete screening the energy scale eLpm of electrons agrees with that of the literature for the radiation length of the medium up to two percent. It is a suppression, never an enhancement, and the factor of a pair is symmetric between electron and positron.", "quantifier": "all energies, losses 0 < v < 1, density corrections, atoms up to Z = 118, media with positive density and energy scale, particles not lighter than the electron", "why_tests_cant": "tables of tests fix a few values of the suppressed cross section for three media; they cannot show limits, bounds or that the correction is applied to all densities alike", "anchors": ["src/PROPOSAL/detail/PROPOSAL/crosssection/parametrization/Bremsstrahlung.cxx:555-667", "src/PROPOSAL/detail/PROPOSAL/crosssection/parametrization/PhotoPairProduction.cxx:339-438"]}
{"id": "C128", "title": "Electron pair production by charged particles is the published formula, integrated over all asymmetries of the pair", "statement": "For every atom up to Z = 118 and every charged particle, FunctionToIntegral of KelnerKokoulinPetrukhin is twice the published cross section per energy loss and asymmetry rho at rho = 1 - r (exactly for xi <= 100000, within 5e-5 above, where the code switches to an expansion), DifferentialCrossSection is its integral over all rho that the energies allow, the coefficients of both diagrams are positive, the contribution of atomic electrons lies between 0 and 73/58 and is absent below 35 masses, and it is non-decreasing in the energy at fixed v without that contribution and tends to a positive limit. In SandrockSoedingreksoRhode the two logarithms of each diagram differ by at most 1/6, their weights are bounded by the coefficients above, the radiative corrections are positive, and the cross section tends to a positive limit at high energies. ForElectronPositron is positive for every allowed asymmetry and so is the cross section that is integrated. Particles and antiparticles have the same cross section.", "quantifier": "all energies, losses 0 < v < 1, asymmetries rho^2 < 1, charges, masses (at least that of the electron for limits), atoms up to Z = 118", "why_tests_cant": "tests compare tables made by the same code; they cannot see that a formula is not the published one, that one branch is never used, or that an integrand is evaluated on the wrong side of the range", "anchors": ["src/PROPOSAL/detail/PROPOSAL/crosssection/parametrization/EpairProduction.cxx:141-549"]}
{"id": "C129", "title": "The suppression of electron pairs by charged particles in dense media is a suppression with the right limits", "statement": "For every particle, energy, loss and asymmetry, the factor of EpairLPM is the ratio of the production in a medium and by a single atom (the functions A to E of Ternovskii are integrals over the virtuality), lies between 0 and 1, is strictly below 1 unless the coherence parameter exceeds 1e10, differs from 1 by at most the inverse of that parameter, decreases with energy and density, tends to 0 for high energies and dense media, and is 1 in thin media and for soft pairs. With it no parametrization is negative or larger than without. The energy scale is positive, grows with the fourth power of the mass over the square of the charge, and depends on the medium only through the atoms per volume, not on how many of them are written as one molecule.", "quantifier": "all positive energies, densities and energy scales, losses 0 < v < 1, asymmetries below 1, atoms up to Z = 118, all media for the scale", "why_tests_cant": "tests fix a few suppressed values for media whose molecules are written in one way; bounds, monotonicity and limits need all inputs, and a wrong weight in the energy scale cannot be seen without a second way of writing the medium", "anchors": ["src/PROPOSAL/detail/PROPOSAL/crosssection/parametrization/EpairProduction.cxx:553-613"]}
{"id": "C130", "title": "The photonuclear interaction of virtual photons stays in its kinematic range and is positive there", "statement": "For every particle, nucleus, energy and loss: the integration over the virtuality covers exactly the values which the scattering of the particle can reach and which leave enough energy for a pion, in its range the momentum fraction is between 0 and 1; for spin 0 the cross section vanishes at both ends of what the scattering can reach, for spin 1/2 it is larger by a positive term; the structure functions of all parametrizations are positive, that of the neutron is between a quarter and the whole of that of the proton, and they go over to a finite positive cross section of real photons when the virtuality goes to zero; shadowing is absent in hydrogen, never enhances below its end, is continuous and positive; the integrand is not negative, the cross section never is, and it grows with the square of the charge.", "quantifier": "all six parametrizations and both shadowings, all masses, energies, losses, virtualities, and nuclei from the mass number of helium on; every result of the numerical integration", "why_tests_cant": "tests compare the integrated losses with stored values for a few media and energies: the contribution of wrong ends of the range or of negative parts of the integrand is included in the stored values", "anchors": ["src/PROPOSAL/detail/PROPOSAL/crosssection/parametrization/PhotoQ2Integration.cxx:36-79", "src/PROPOSAL/detail/PROPOSAL/crosssection/parametrization/PhotoQ2Integration.cxx:81-221", "src/PROPOSAL/detail/PROPOSAL/crosssection/parametrization/PhotoQ2Integration.cxx:373-466", "src/PROPOSAL/detail/PROPOSAL/crosssection/parametrization/PhotoQ2Integration.cxx:607-612", "src/PROPOSAL/detail/PROPOSAL/crosssection/parametrization/PhotoQ2Integration.cxx:637-834", "src/PROPOSAL/detail/PROPOSAL/crosssection/parametrization/PhotoQ2Integration.cxx:843-915"]}
{"id": "C131", "title": "A stored interpolation table is only used for what it was made of", "statement": "With a path for tables, every calculator gets a table made of its own data, whichever tables were written before by this or an earlier run: the name of a table (prefix and hash) determines the kind of table, the parametrization with its options, the numbers of particle, medium, target and cuts, the number of nodes and the upper energy; the names of the tables of propagation utilities determine the utility, the list of cross sections with their multipliers, life time and mass; and the same request has the same name in every run.", "quantifier": "all cross sections, options, particles, media, components, cuts, settings; all sequences of requests; all hash functions without collisions between the requests", "why_tests_cant": "tests build tables in empty directories or in memory and one at a time; two calculators of which the second reads the file of the first, in the same or in a later run, do not occur", "anchors": ["src/PROPOSAL/detail/PROPOSAL/crosssection/CrossSection.cxx:10-37", "src/PROPOSAL/PROPOSAL/crosssection/CrossSection.h:236-272", "src/PROPOSAL/PROPOSAL/crosssection/CrossSection.h:90-110", "src/PROPOSAL/detail/PROPOSAL/crosssection/CrossSectionDNDX/CrossSectionDNDXInterpolant.cxx:44-61", "src/PROPOSAL/detail/PROPOSAL/propagation_utility/PropagationUtilityInterpolant.cxx:34-58", "src/PROPOSAL/PROPOSAL/secondaries/parametrization/photopairproduction/PhotoPairProductionInterpolant.h:31-35", "src/PROPOSAL/detail/PROPOSAL/secondaries/parametrization/weakinteraction/WeakCooperSarkarMertsch.cxx:10-15", "src/PROPOSAL/detail/PROPOSAL/particle/ParticleDef.cxx:250-254"]}
{"id": "C132", "title": "A configuration builds exactly the sectors that it describes", "statement": "`Propagator(particle, json)` has one sector for each geometry, in the order of the entries and of the geometries; medium, cuts, interpolation, exact time, scattering and cross sections of a sector are those of its entry, otherwise those of `global`, otherwise the documented defaults; the density is the given one or that of the medium; the list of cross sections has one cross section for each of the twelve keys that occur, with the parametrization of the given name in any case of letters, its multiplier, LPM effect for the density of the sector, shadowing and hard component; every parametrization can be reached by its name; decay exists exactly for unstable particles, continuous randomization exactly if the cuts ask for it. A sector without medium, cuts or geometry is refused, and so is an unknown name.", "quantifier": "all JSON values, all particles, all constructors of cuts, geometries, densities and scattering", "why_tests_cant": "tests read a handful of configuration files; the product of keys, of the places where settings come from and of names cannot be enumerated", "anchors": ["src/PROPOSAL/detail/PROPOSAL/Propagator.cxx:42-56", "src/PROPOSAL/detail/PROPOSAL/Propagator.cxx:389-446", "src/PROPOSAL/detail/PROPOSAL/Propagator.cxx:448-470", "src/PROPOSAL/detail/PROPOSAL/Propagator.cxx:472-523", "src/PROPOSAL/detail/PROPOSAL/Propagator.cxx:525-546", "src/PROPOSAL/detail/PROPOSAL/crosssection/Factories/PhotonuclearFactory.cxx:35-112", "src/PROPOSAL/PROPOSAL/crosssection/ParticleDefaultCrossSectionList.h:71-175"]}
{"id": "C133", "title": "The Coulomb corrections are those of Bethe and Maximon", "statement": "The Coulomb correction in PhotoPairKochMotz, BremsElectronScreening and the radiation logarithms agrees with f = a^2 sum 1/(n (n^2 + a^2)), a = alpha Z, up to 6e-5 a^2 for all charges up to 100; that in PhotoPairTsai agrees with f at a = Z/137 up to 1.2e-3 a^2.", "quantifier": "all charges between 0 and 100", "why_tests_cant": "a wrong digit or sign in the polynomials changes cross sections of heavy elements by less than the tolerance of tests", "anchors": ["src/PROPOSAL/detail/PROPOSAL/crosssection/parametrization/PhotoPairProduction.cxx:153-157", "src/PROPOSAL/detail/PROPOSAL/crosssection/parametrization/PhotoPairProduction.cxx:315-317", "src/PROPOSAL/detail/PROPOSAL/crosssection/parametrization/Bremsstrahlung.cxx:229-233", "src/PROPOSAL/detail/PROPOSAL/crosssection/parametrization/Bremsstrahlung.cxx:507-511"]}
{"id": "C134", "title": "Tables of arrays interpolate by the polynomial through the nodes next to the point", "statement": "An Interpolant made of vectors of nodes and values gives at every point, inside and outside of the table, the value of the polynomial through as many nodes as the order says, those next to the point; the tabulated values at the nodes; polynomials of lower degree exactly; a continuous function; in two variables the same for each; and neither earlier calls nor SetFast change a result.", "quantifier": "all vectors of ascending or descending nodes, all values, orders, points and sequences of earlier calls", "why_tests_cant": "the search, the choice of nodes and the recursion depend on order, size and position; a test has a few tables and points", "anchors": ["src/PROPOSAL/detail/PROPOSAL/math/Interpolant.cxx:163-298", "src/PROPOSAL/detail/PROPOSAL/math/Interpolant.cxx:1147-1422", "src/PROPOSAL/detail/PROPOSAL/math/Interpolant.cxx:1727-1940"]}
{"id": "C135", "title": "Tables of functions interpolate the function, or its logarithm, on nodes in the middles of equal cells", "statement": "An Interpolant made of a function gives the polynomial in the point, or in its logarithm, through the function at the nodes nearest to the point; with substituted logarithms the result is never negative, is the exponential of the polynomial through logarithms where the function is positive at these nodes, and the polynomial through the values where it is not; polynomials of lower degree are reproduced.", "quantifier": "all functions, intervals, numbers of nodes, orders, flags and points", "why_tests_cant": "which nodes are used and which of the branches for values without logarithm is taken varies with the function and the point", "anchors": ["src/PROPOSAL/detail/PROPOSAL/math/Interpolant.cxx:45-87", "src/PROPOSAL/detail/PROPOSAL/math/Interpolant.cxx:975-1051", "src/PROPOSAL/detail/PROPOSAL/math/Interpolant.cxx:1597-1708", "src/PROPOSAL/detail/PROPOSAL/math/Interpolant.cxx:1727-1985"]}
{"id": "C136", "title": "FindLimit inverts a monotone table and stays in it", "statement": "FindLimit gives for a tabulated value its node, inverts the interpolation of linear functions, and never gives a point outside of the table; between nodes it interpolates with the order and the kind of function that the constructor was given for the inverse.", "quantifier": "all monotone tables, orders, flags and arguments", "why_tests_cant": "the clipping and the exchange of abscissae and ordinates concern arguments at and beyond the ends", "anchors": ["src/PROPOSAL/detail/PROPOSAL/math/Interpolant.cxx:303-406"]}
{"id": "C137", "title": "The tabulated low energy corrections are valid for every element and every energy", "statement": "The interpolation in the table of correction factors for bremsstrahlung of electrons and in the table of Storm and Israel for pair production by photons gives the tabulated numbers at the nodes, does not depend on earlier calls, and stays positive and bounded for every element and every kinetic energy for which the parametrizations use it, also between and outside of the nodes; the cross section of the photons grows with the charge.", "quantifier": "all charges up to 118 (100 for photons), all energies at which the tables are used, all sequences of earlier calls", "why_tests_cant": "the tables have some 3300 numbers; one misprint or one extrapolation in the wrong direction concerns one element at one energy", "anchors": ["src/PROPOSAL/detail/PROPOSAL/crosssection/parametrization/Bremsstrahlung.cxx:434-448", "src/PROPOSAL/detail/PROPOSAL/crosssection/parametrization/Bremsstrahlung.cxx:545-570", "src/PROPOSAL/detail/PROPOSAL/crosssection/parametrization/PhotoPairProduction.cxx:85-128", "src/PROPOSAL/detail/PROPOSAL/crosssection/parametrization/ParamTables.cxx:18252-19038"]}
{"id": "C138", "title": "The normal quantile with the coefficients of the code is accurate for every probability", "statement": "For every probability that a normal number of type double can represent, the function normalppf with exactly the 21 coefficients, the limits of the regions and the single refinement in the code returns a number at which the normal distribution function is the probability up to 10^-12 of the smaller of the probability and its complement; it differs from the one exact quantile by at most 10^-11. So a random number with equal probability everywhere gives the normal distribution up to 2e-12, and SampleFromGaussian gives the truncated normal distribution within the limits up to 10^-11 widths.", "quantifier": "all probabilities p with 1e-308 <= p and 1e-308 <= 1-p, all means, widths, limits and random numbers", "why_tests_cant": "a misprint in a late digit of one of 21 coefficients, in one of three regions, changes the quantiles slightly in one region only; far tails are never sampled in a test", "anchors": ["src/PROPOSAL/detail/PROPOSAL/math/MathMethods.cxx:14-77", "src/PROPOSAL/detail/PROPOSAL/math/MathMethods.cxx:405-413"]}
{"id": "C139", "title": "Interpolation tables survive saving, loading and copying", "statement": "A table that is saved, after any calls, and loaded by a new object is the table that the constructor makes: tables of functions and of vectors of one variable and tables of functions of two variables, for all arguments of the constructors; in text files with numbers rounded. A file that ends early is noticed. Copies and assigned objects interpolate as the original and can be saved, too. Objects that compare equal give equal results, and objects with the same table are equal.", "quantifier": "all arguments of the constructors, all functions and vectors, all sequences of calls before saving, all lengths of an incomplete file", "why_tests_cant": "tables written by one program are read by another one; a member that is lost shows up only in the branch that uses it, and incomplete files arise from crashes", "anchors": ["src/PROPOSAL/detail/PROPOSAL/math/Interpolant.cxx:573-880", "src/PROPOSAL/detail/PROPOSAL/math/Interpolant.cxx:928-970", "src/PROPOSAL/detail/PROPOSAL/math/Interpolant.cxx:1430-1590"]}
{"id": "C140", "title": "Angles of electron pairs after Tsai", "statement": "PhotoPairProductionTsai draws the polar angle of each of the two particles from Tsai's distribution of angles: the angle lies between 0 and pi and the part of the distribution below it is the random number, whatever the energy-dependent substitution. The distribution is positive, and each of the two particles has the distribution that belongs to its own share of the energy.", "quantifier": "all elements heavier than helium, energies, shares, random numbers, states of the integration object", "why_tests_cant": "Tests compare a few stored directions; they cannot show for a continuum of energies, shares and elements that the density is positive, that the substitution does not change the drawn angles, or that the density of the right particle is used", "anchors": ["src/PROPOSAL/detail/PROPOSAL/secondaries/parametrization/photopairproduction/PhotoPairProductionTsai.cxx:5-127"]}
{"id": "C141", "title": "Seeds and the state of the random generator", "statement": "Without a function of the user all random numbers are in [0, 1). After SetSeed the numbers depend on the seed alone; two different seeds of type int give different numbers, already among the first 312. What Serialize wrote brings any generator back to the numbers that followed. A function of the user is not touched by seeds and saved states, and after SetDefaultRandomNumberGenerator the engine goes on where it was. No other part of the library changes the numbers of the user, in particular not the secondaries of bremsstrahlung.", "quantifier": "all seeds of type int, all states of the engine, all numbers of draws, all functions of the user, all losses", "why_tests_cant": "two seeds of 2^32 would have to be compared in all pairs; the reseeding happens in a rare case deep inside the calculation of secondaries and shows only in the numbers of later calculations", "anchors": ["src/PROPOSAL/detail/PROPOSAL/math/RandomGenerator.cxx:13-92", "src/PROPOSAL/detail/PROPOSAL/secondaries/parametrization/bremsstrahlung/BremsKochMotz.cxx:33-52", "src/PROPOSAL/PROPOSAL/math/RandomGenerator.h:50-107"]}
{"id": "C142", "title": "Rejection of bremsstrahlung angles after Koch and Motz", "statement": "The function of the angular distribution is positive for every energy and nucleus, so that every angle can occur; the loop returns the candidate of the first pair of random numbers whose second number is at most the normalised function; the angle is between 0 and pi. The normalised function never exceeds 1, as the rejection needs it.", "quantifier": "all energies of the electron before and after from its rest energy on, all charges up to 100, all angles, all random numbers", "why_tests_cant": "a minimum over four continuous parameters; the normalisation uses three points only and is exceeded by little", "anchors": ["src/PROPOSAL/detail/PROPOSAL/secondaries/parametrization/bremsstrahlung/BremsKochMotz.cxx:10-52"]}
{"id": "C143", "title": "Propagation ends", "statement": "Propagate returns: the loop over the steps ends after a number of passes that is bounded in advance by the maximal distance, the initial and the minimal energy and the smallest share of the energy an interaction takes.", "quantifier": "all sectors, geometries, random numbers and initial states", "why_tests_cant": "a test can only observe that particular runs end; a loop that does not end for one stream of random numbers is not found", "anchors": ["src/PROPOSAL/detail/PROPOSAL/Propagator.cxx:75-138", "src/PROPOSAL/detail/PROPOSAL/geometry/Sphere.cxx:233-241", "src/PROPOSAL/detail/PROPOSAL/geometry/Box.cxx:268-282", "src/PROPOSAL/detail/PROPOSAL/geometry/Cylinder.cxx:505-520"]}
{"id": "C144", "title": "Secondaries start at the loss with no distance of their own", "statement": "Every particle returned by the calculators of secondaries and by the decay channels starts at the place and the time of the loss or decay with a propagated distance of zero, so that the maximal distance given to Propagate counts from there, whatever the interaction was.", "quantifier": "For all losses, primaries, random numbers, sampled shares and angles, all decay channels and parents.", "why_tests_cant": "A test looks at the fields of a few returned states; that no calculator keeps the distance of the primary needs every calculator.", "anchors": ["src/PROPOSAL/detail/PROPOSAL/secondaries/parametrization/bremsstrahlung/Bremsstrahlung.cxx:6-28", "src/PROPOSAL/PROPOSAL/secondaries/parametrization/epairproduction/KelnerKokoulinPetrukhinEpairProduction.h:76-102", "src/PROPOSAL/detail/PROPOSAL/secondaries/parametrization/mupairproduction/KelnerKokoulinPetrukhinMupairProduction.cxx:55-79", "src/PROPOSAL/PROPOSAL/secondaries/parametrization/photonuclear/Photonuclear.h:22-43", "src/PROPOSAL/detail/PROPOSAL/Propagator.cxx:160-170"]}
{"id": "C145", "title": "Cross sections with tables answer like those without", "statement": "A cross section built with interpolation tables is built whenever the one without tables is, and gives the same rates, mean losses and squared losses up to the error of the splines at all energies of the tables, zero where there are no losses.", "quantifier": "For all media, cuts, thresholds of the components, table settings, splines and energies.", "why_tests_cant": "A test compares both at some energies of a few media; an exception of the constructor for cuts without stochastic losses and the shift of the threshold by a part of a step need all cuts and energies.", "anchors": ["src/PROPOSAL/PROPOSAL/crosssection/CrossSection.h:72-201", "src/PROPOSAL/PROPOSAL/crosssection/CrossSectionDEDX/CrossSectionDEDXBuilder.h:9-23", "src/PROPOSAL/PROPOSAL/crosssection/CrossSectionDNDX/CrossSectionDNDXBuilder.h:10-20", "src/PROPOSAL/detail/PROPOSAL/crosssection/CrossSectionDEDX/CrossSectionDEDXInterpolant.cxx:25-30", "src/PROPOSAL/detail/PROPOSAL/crosssection/CrossSectionDNDX/CrossSectionDNDXInterpolant.cxx:63-76", "src/PROPOSAL/detail/PROPOSAL/propagation_utility/InteractionBuilder.cxx:40-64"]}
{"id": "C146", "title": "A propagator made of cross sections gives a consistent track", "statement": "With the calculators that the propagator makes of a list of cross sections, a loss of energy never gains energy, a shorter grammage never leads to less energy, lengths and times are not negative, and sampled energies stay between the lower limit and the current energy; so distance and time do not decrease along the track, the energy does not increase, and a particle that cannot reach a border flies along its ray within the requested distance until the propagation ends.", "quantifier": "For all lists of cross sections with a positive lower limit, cuts, lifetimes, masses, flags, densities, random numbers from 0 to below 1, positions and directions.", "why_tests_cant": "A test sees single tracks of some particles; that the ranges of all calculators fit together at every energy, also where integrals are cut off as too narrow, needs all energies and random numbers.", "anchors": ["src/PROPOSAL/detail/PROPOSAL/Propagator.cxx:448-470", "src/PROPOSAL/detail/PROPOSAL/propagation_utility/PropagationUtility.cxx:80-90", "src/PROPOSAL/detail/PROPOSAL/propagation_utility/InteractionBuilder.cxx:95-109", "src/PROPOSAL/detail/PROPOSAL/propagation_utility/DecayBuilder.cxx:38-56", "src/PROPOSAL/detail/PROPOSAL/propagation_utility/DisplacmentBuilder.cxx:40-47", "src/PROPOSAL/PROPOSAL/propagation_utility/ContRandBuilder.h:29-38", "src/PROPOSAL/detail/PROPOSAL/propagation_utility/TimeBuilder.cxx:51-76", "src/PROPOSAL/detail/PROPOSAL/Propagator.cxx:58-151"]}
{"id": "C147", "title": "A cascade conserves energy", "statement": "Propagate a particle, give every loss of GetStochasticLosses() to the SecondariesCalculator made of the default parametrizations (make_secondaries) and take GetDecayProducts() of the track. A particle which survives an interaction is the first of its secondaries, with the energy, place and time of the track after the loss. The other secondaries carry the lost energy, plus the rest energy of the electron which ionization, Compton scattering, annihilation and the photoelectric effect take from the atom (there less the binding). So the continuous losses, all secondaries and the last state, or the products of the decay that replaces it, have together the initial energy and the energy of these electrons. The same holds when the secondaries are propagated themselves, down to a cascade of any size. Only the twelve interaction types with a default parametrization can be used; for others the construction throws.", "quantifier": "all propagations, sectors, random numbers, numbers sampled by the calculators, components and cascades", "why_tests_cant": "a test follows single interactions with fixed random numbers; the balance of whole cascades over all interaction types and random numbers is never summed up", "anchors": ["src/PROPOSAL/PROPOSAL/secondaries/SecondariesCalculator.h:36-72", "src/PROPOSAL/PROPOSAL/RegisteredInDefault.h:13-29", "src/PROPOSAL/detail/PROPOSAL/Secondaries.cxx:52-71", "src/PROPOSAL/detail/PROPOSAL/Secondaries.cxx:368-385", "src/PROPOSAL/PROPOSAL/secondaries/parametrization/Parametrization.h:22-25"]}
{"id": "C148", "title": "Interactions which convert the particle take all of its energy", "statement": "make_crosssection refuses cuts for annihilation, photo effect, weak interaction and the pairs of photons, with std::logic_error. The cross section of an interaction which converts the particle (these and photoproduction) has no continuous loss, and every loss sampled from it has v = 1: the entry of the track after it has the energy 0, and the energy balance of tracks and cascades needs no assumption about the sampled losses. This does not depend on interpolation or on how the parametrization is passed. The cross sections of configurations and the default cross sections are never refused. Annihilation, photo effect and photoproduction, which have no differential cross section, report the rates of the components of the medium in their order, with the total as sum; the rate of a component asked for by its hash is the one in the list.", "quantifier": "all parametrizations, cuts, calculators of rates and losses, media, energies, random numbers and propagations", "why_tests_cant": "tests build each cross section once, from a variable that is not const, and compare few rates; whether a path of template arguments loses the property of taking all energy does not show there", "anchors": ["src/PROPOSAL/PROPOSAL/crosssection/CrossSectionBuilder.h:11-64", "src/PROPOSAL/PROPOSAL/crosssection/CrossSectionDirect.h:7-65", "src/PROPOSAL/PROPOSAL/crosssection/parametrization/Parametrization.hpp:5-43", "src/PROPOSAL/PROPOSAL/crosssection/parametrization/Parametrization.h:58-62", "src/PROPOSAL/detail/PROPOSAL/crosssection/parametrization/Annihilation.cxx:15-70", "src/PROPOSAL/PROPOSAL/crosssection/parametrization/Annihilation.h:36-57"]}
{"id": "C149", "title": "The built-in particles are consistent", "statement": "Every predefined particle can be constructed at any time and is found by its type with exactly its data; a definition of the user with the same type and other data is refused. Charges are the physical ones; particle and antiparticle have the same mass, limit, lifetime and opposite charge and decay with the same branching ratios into antiparticles of the products of each other; the weak partner of a lepton belongs to the same family, differs by one unit of charge and has the lepton as its own partner; the limit is never below the mass; exactly the unstable particles have a finite lifetime; the numbers of the hash tell all of them apart. A builder never gives a limit below the mass and otherwise keeps what was set.", "quantifier": "for all predefined particles, all sequences of constructions before, all definitions of the user", "why_tests_cant": "The definitions are thirty independent literals with four nested decay tables; tests look at single fields.", "anchors": ["src/PROPOSAL/detail/PROPOSAL/particle/ParticleDef.cxx:25-33", "src/PROPOSAL/detail/PROPOSAL/particle/ParticleDef.cxx:97-131", "src/PROPOSAL/detail/PROPOSAL/particle/ParticleDef.cxx:255-585", "src/PROPOSAL/PROPOSAL/particle/ParticleDef.h:196-270"]}
{"id": "C150", "title": "Cascades conserve charge and lepton numbers", "statement": "The secondaries of every interaction are the particles of this interaction; together with a particle that survives, or instead of one that is converted, they have its charge and its electron, muon and tau number, plus those of an electron of the atom for ionization, Compton scattering, annihilation and the photoelectric effect; in a weak interaction the hadrons take one unit of charge. An interaction which converts the particle ends its track. With the decays of muons and taus this holds for whole tracks and for cascades of any size.", "quantifier": "for all particles, media, losses, random numbers, tracks and cascades", "why_tests_cant": "A test can count the particles of single events; a cascade combines any number of interactions, tracks and decays.", "anchors": ["src/PROPOSAL/detail/PROPOSAL/secondaries/parametrization/weakinteraction/WeakCooperSarkarMertsch.cxx:36-51", "src/PROPOSAL/detail/PROPOSAL/secondaries/parametrization/ionization/NaivIonization.cxx:1-60", "src/PROPOSAL/detail/PROPOSAL/Propagator.cxx:61-138", "src/PROPOSAL/detail/PROPOSAL/secondaries/SecondariesCalculator.cxx:1-16"]}
{"id": "C151", "title": "Moving the whole setup moves the track", "statement": "Where the origin of the coordinates lies, at which time and with which distance counter a particle starts does not matter: if the particle, all geometries and densities and the final distance are moved together, every situation of the propagation is the moved situation of the original one, with the same energies, the same interactions, the same decisions and the same random numbers, and the same faults occur. Without scattering the whole setup can be turned, too. Spheres can be moved in every way, boxes shifted, cylinders shifted and turned about their direction; the densities follow. The results read from a track (state at an energy or a distance, entry, exit, closest approach, hit) move with it.", "quantifier": "for all sectors and physics, random streams, settings, start states, shifts in space, time and distance, and turns of space", "why_tests_cant": "Tests propagate from a few fixed places; a dependence on the absolute position would appear only far away from them.", "anchors": ["src/PROPOSAL/detail/PROPOSAL/Propagator.cxx:58-360", "src/PROPOSAL/detail/PROPOSAL/Secondaries.cxx:84-366", "src/PROPOSAL/detail/PROPOSAL/geometry/Sphere.cxx:63-241", "src/PROPOSAL/detail/PROPOSAL/geometry/Box.cxx:63-282", "src/PROPOSAL/detail/PROPOSAL/geometry/Cylinder.cxx:68-520", "src/PROPOSAL/detail/PROPOSAL/density_distr/density_distr.cxx:59-143"]}
{"id": "C152", "title": "A larger maximal distance continues the same track", "statement": "Without scattering, how far a particle is asked to go does not influence what happens before: two propagations with the same random numbers that differ only in the maximal distance have the same situations as long as all distances are below the smaller maximal distance, and a propagation that ends by itself below it (by a decay, at the lowest energy or at a chosen border) ends in the same way with every larger maximal distance.", "quantifier": "for all sectors without scattering, densities, random streams, settings, start states and pairs of maximal distances", "why_tests_cant": "Tests propagate with one maximal distance at a time.", "anchors": ["src/PROPOSAL/detail/PROPOSAL/Propagator.cxx:58-303"]}
{"id": "C153", "title": "A propagation is reproducible from its random numbers", "statement": "What a propagation does depends only on the random numbers drawn between its start and its end: with another stream that has the same numbers there, at the same or at a later place, all states, the track, the sector and the end are the same, and the next number is the one behind them. No iteration goes without a random number and none goes back in the stream.", "quantifier": "for all sectors, physics and scattering, settings, start states, random streams and places in them", "why_tests_cant": "Tests compare two runs with the same seed for a few examples; that a result does not depend on numbers drawn later or before is not observable in a test.", "anchors": ["src/PROPOSAL/detail/PROPOSAL/Propagator.cxx:58-303", "src/PROPOSAL/detail/PROPOSAL/propagation_utility/PropagationUtility.cxx:92-176"]}
{"id": "C154", "title": "What matters in a list of sectors", "statement": "The order in which sectors are given to the propagator does not matter unless two different sectors of the same hierarchy overlap (then the first one is taken); of the hierarchies only their order matters, not the numbers; a sector has no influence in a region that is filled by a sector of higher hierarchy; and the hierarchy condition only cuts a track short.", "quantifier": "for all lists of sectors, geometries, physics, random streams, settings and start states", "why_tests_cant": "Tests use a few lists in one order with one set of numbers.", "anchors": ["src/PROPOSAL/detail/PROPOSAL/Propagator.cxx:58-139", "src/PROPOSAL/detail/PROPOSAL/Propagator.cxx:305-360"]}
{"id": "C155", "title": "Propagation with interpolation tables", "statement": "With the interpolation switched on, as it is by default, the track of a particle obeys the same rules as without tables: distance and time do not decrease, the energy does not increase, a step shorter than the length to an energy leaves at least that energy; and with exact tables the energies of interactions and decays, lengths between energies and energies after a length are the ones without tables.", "quantifier": "for all cross sections, tables that do not decrease, settings, random streams and start states", "why_tests_cant": "Tests compare a few energies with stored values, with tables whose error hides the difference.", "anchors": ["src/PROPOSAL/detail/PROPOSAL/propagation_utility/PropagationUtilityInterpolant.cxx:26-130", "src/PROPOSAL/detail/PROPOSAL/Propagator.cxx:448-470"]}
{"id": "C156", "title": "Directions of decay products favour no direction", "statement": "The direction drawn for a decay product in the frame of the decaying particle is uniform on the sphere: turning all directions by any rotation does not change the distribution, every direction occurs, and the cosine of the angle with any direction is uniform. Therefore, in the decay of a moving particle into two, the energy of each product is uniform between its kinematic limits.", "quantifier": "for all rotations, directions, observables, masses, energies and directions of the parent", "why_tests_cant": "Uniformity is a statement about all pairs of random numbers; tests draw a few.", "anchors": ["src/PROPOSAL/detail/PROPOSAL/decay/DecayChannel.cxx:109-116", "src/PROPOSAL/detail/PROPOSAL/decay/TwoBodyPhaseSpace.cxx:41-64"]}
{"id": "C157", "title": "The next event follows the competition of decay and interactions", "statement": "In every iteration the energy at which the next event happens follows the physical law: the probability that nothing happens above an energy is the exponential of minus the expected number of decays and interactions above it, and the next event is a decay (or an interaction) at an energy with the number of decays (or interactions) per lost energy times the probability that nothing happened before.", "quantifier": "for all cross sections with continuous positive losses and rates, masses, lifetimes, densities, energies and all states of a propagation", "why_tests_cant": "The law is about all random numbers and concerns the combination of two calculators and a choice; a comparison of stored energies cannot show it.", "anchors": ["src/PROPOSAL/detail/PROPOSAL/Propagator.cxx:75-93", "src/PROPOSAL/detail/PROPOSAL/propagation_utility/InteractionBuilder.cxx:66-74", "src/PROPOSAL/detail/PROPOSAL/propagation_utility/DecayBuilder.cxx:27-35"]}
{"id": "C158", "title": "No side of the flight direction is preferred", "statement": "The azimuth of every deflection is uniform: the direction after a stochastic deflection, the directions of all products of an interaction together, and the mean and final direction after multiple scattering (Highland) have the same distribution after any rotation about the direction of the particle and after any reflection at a plane through it. On average a deflected particle goes on in the old direction, and products of decays in flight turn with the direction drawn in the rest frame.", "quantifier": "for all directions, energies, masses, random numbers other than that of the azimuth, rotations, reflections and observables", "why_tests_cant": "A preferred side is a property of the distribution over all random numbers and of all directions of flight together; tests compare single directions.", "anchors": ["src/PROPOSAL/detail/PROPOSAL/math/Cartesian3D.cxx:108-134", "src/PROPOSAL/detail/PROPOSAL/scattering/multiple_scattering/Highland.cxx:69-88", "src/PROPOSAL/detail/PROPOSAL/scattering/multiple_scattering/Parametrization.cxx:40-69", "src/PROPOSAL/detail/PROPOSAL/scattering/stochastic_deflection/bremsstrahlung/BremsTsaiApproximation.cxx:6-19", "src/PROPOSAL/detail/PROPOSAL/secondaries/parametrization/compton/NaivCompton.cxx:15-28", "src/PROPOSAL/detail/PROPOSAL/secondaries/parametrization/bremsstrahlung/BremsEGS4Approximation.cxx:7-24"]}
{"id": "C159", "title": "Type, target and loss of an interaction follow the differential cross sections", "statement": "For a random number that is uniform in [0, 1), the probability that Interaction::SampleLoss gives a type, a target and a relative loss in any set is the integral of the differential cross section of this type and target over the set, with the share of the target in the mass of the medium and the multiplier of the cross section, divided by the sum of the rates of all types and targets. Interactions which take all energy have their rate at the loss 1. The propagator draws the interactions of a track from this law, so the energy after an interaction has the law of energy times one minus the loss.", "quantifier": "for all lists of cross sections of components, of media, with and without cuts, with multipliers and of the direct kind, all energies, types, targets, sets of losses and exact calculators by integration or table", "why_tests_cant": "The distribution of losses over the random number is a statement about all random numbers at once; tests compare single random numbers or histograms with limited statistics.", "anchors": ["src/PROPOSAL/detail/PROPOSAL/propagation_utility/Interaction.cxx:28-77", "src/PROPOSAL/PROPOSAL/crosssection/CrossSection.h:67-110", "src/PROPOSAL/PROPOSAL/crosssection/CrossSection.h:289-336", "src/PROPOSAL/detail/PROPOSAL/crosssection/CrossSectionDNDX/CrossSectionDNDXIntegral.cxx:140-159", "src/PROPOSAL/detail/PROPOSAL/Propagator.cxx:141-151"]}
{"id": "C160", "title": "Energy, type, target and loss of the next interaction follow the cross sections together", "statement": "The probability that the next event of a propagation is an interaction above an energy, of a given type, on a given target and with a loss in a given set is the integral over the energies above it of the rate of these interactions per energy lost, times the probability of neither a decay nor an interaction before. Of the random numbers, the first two decide on the energy and the one at the interaction decides on type, target and loss.", "quantifier": "for all lists of cross sections with positive continuous losses, all energies, densities, lifetimes, types, targets and sets of losses", "why_tests_cant": "The joint distribution over three random numbers of an iteration cannot be seen by tests of the single calculators, and it would be wrong if a random number were used twice or the rates were taken at the wrong energy.", "anchors": ["src/PROPOSAL/detail/PROPOSAL/Propagator.cxx:75-151", "src/PROPOSAL/detail/PROPOSAL/propagation_utility/Interaction.cxx:28-77", "src/PROPOSAL/detail/PROPOSAL/propagation_utility/PropagationUtility.cxx:92-114"]}
{"id": "C161", "title": "The mean energy loss does not depend on the energy cut", "statement": "Continuous losses per grammage plus the rate of interactions times the mean energy lost in one of them, with the random number of the propagation, is the integral of the energy loss over all losses between the kinematic limits, summed over processes and over the components with their shares of the mass. The energy cut does not enter, so two sets of cross sections which differ in the cut lose the same energy in the mean. With continuous randomization the same holds for the squared losses.", "quantifier": "for all lists of processes (of components, of the whole medium, and converting ones), all energies and all cuts between the kinematic limits which allow interactions", "why_tests_cant": "Tests compare loss tables for a few cuts and would need large samples to see the mean of the interactions, a wrong weight of a component or a gap at the cut changes it by less than the fluctuations.", "anchors": ["src/PROPOSAL/PROPOSAL/crosssection/CrossSection.h:89-155", "src/PROPOSAL/detail/PROPOSAL/crosssection/CrossSectionDEDX/CrossSectionDEDXIntegral.cxx:21-53", "src/PROPOSAL/detail/PROPOSAL/propagation_utility/Interaction.cxx:28-77"]}
{"id": "C162", "title": "Free paths and decay lengths", "statement": "In a homogeneous medium a particle passes a length without an event with the probability of the physical law: the exponential of minus the amount of matter times the rate of interactions, minus the length over the decay length (velocity times dilated lifetime); with a constant rate and without decay the free path is exponentially distributed. The number of decays on a piece of the track is the elapsed time over the dilated lifetime, and a propagation ends at the maximal distance without an event with just this probability.", "quantifier": "for all particles with continuous positive losses and rates, all energies, lengths, densities, streams of random numbers and settings of the propagation with a sector larger than the range", "why_tests_cant": "The decay and interaction lengths emerge from three independent integrals (displacement, decay, time) and the search for the maximal distance; tests look at each calculator alone, or at averages of few events.", "anchors": ["src/PROPOSAL/detail/PROPOSAL/Propagator.cxx:75-303", "src/PROPOSAL/detail/PROPOSAL/propagation_utility/Decay.cxx:7-13", "src/PROPOSAL/detail/PROPOSAL/propagation_utility/Displacment.cxx:6-13", "src/PROPOSAL/detail/PROPOSAL/propagation_utility/TimeBuilder.cxx:32-48"]}
{"id": "C163", "title": "Randomised energies follow the restricted normal distribution", "statement": "With continuous randomization the energy after a continuous loss has the normal distribution around the energy without randomization, with the variance of the losses below the cut, restricted to the energies between the minimal and the initial energy; the mean and the variance of the continuous losses are kept.", "quantifier": "all cross sections, cuts, initial, final and minimal energies, mean values of all functions of the energy over the random number, every end of a step of a propagation", "why_tests_cant": "A distribution over all random numbers cannot be checked by samples exactly; a small shift of the mean energy loss is hidden by statistical fluctuations.", "anchors": ["src/PROPOSAL/PROPOSAL/propagation_utility/ContRandBuilder.h:29-38", "src/PROPOSAL/detail/PROPOSAL/propagation_utility/ContRand.cxx:28-35", "src/PROPOSAL/detail/PROPOSAL/math/MathMethods.cxx:405-413", "src/PROPOSAL/detail/PROPOSAL/Propagator.cxx:293-302"]}
{"id": "C164", "title": "Dividing a piece of matter does not change the law of events", "statement": "Between two interactions a particle has no memory: if it is stopped, at a border of a sector or by a maximal distance, and goes on in the same medium, then the energies of the next decay or interaction and the continuous losses have the same distribution as without the stop; the probability to pass two media without an event is the product of the probabilities to pass each of them. A border between two sectors of the same medium is therefore not seen in the events.", "quantifier": "all cross sections, cuts, densities, lifetimes, initial energies, energies at the stop, sectors and borders, probabilities over all random numbers", "why_tests_cant": "Tests compare single runs or samples; that cutting a volume into sectors leaves the distribution unchanged is a statement about all random numbers and all ways of cutting.", "anchors": ["src/PROPOSAL/detail/PROPOSAL/Propagator.cxx:58-150", "src/PROPOSAL/detail/PROPOSAL/Propagator.cxx:153-303", "src/PROPOSAL/detail/PROPOSAL/propagation_utility/Displacment.cxx:6-13", "src/PROPOSAL/detail/PROPOSAL/scattering/multiple_scattering/Highland.cxx:53-65"]}
{"id": "C165", "title": "A smaller minimal energy continues the same track", "statement": "The minimal energy of a propagation only decides where the track ends: with the same random numbers and a smaller minimal energy all steps whose decay or interaction lies above the larger one are the same, and the run goes on where the other one has ended; minimal energies below the lower limits of the calculators make no difference.", "quantifier": "all sectors, utilities, random numbers, initial states and pairs of minimal energies, runs of any length", "why_tests_cant": "Tests run single seeds with one minimal energy; the agreement of two runs of any length is a statement about pairs of executions.", "anchors": ["src/PROPOSAL/detail/PROPOSAL/Propagator.cxx:58-150", "src/PROPOSAL/detail/PROPOSAL/Propagator.cxx:293-302", "src/PROPOSAL/detail/PROPOSAL/propagation_utility/PropagationUtility.cxx:116-125", "src/PROPOSAL/PROPOSAL/propagation_utility/ContRandBuilder.h:29-38"]}
{"id": "C166", "title": "A stored spline is read back", "statement": "A spline written to a file with save and read with the constructor from a file is the spline that was written: the same number of pieces, knots and coefficients up to the precision of the file, exactly the same if its numbers have at most six digits; storing it again changes nothing, and no other file is touched.", "quantifier": "all splines (through any nodes, linear and cubic, and from any polynomials), file names and contents of the file system, all roundings to six digits", "why_tests_cant": "Tests do not read stored splines; that writer and reader agree on the layout for every number of pieces and every degree is a statement about all splines.", "anchors": ["src/PROPOSAL/detail/PROPOSAL/math/Spline.cxx:34-39", "src/PROPOSAL/detail/PROPOSAL/math/Spline.cxx:102-169", "src/PROPOSAL/PROPOSAL/math/TableWriter.h:38-95"]}

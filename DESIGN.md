# Design: a Lean 4 model of PROPOSAL

The model covers the parts of the library that decide what a user observes: geometries, the propagation loop, tracks and
their queries, energy cuts, rates and sampling, kinematic limits, decays, secondaries, densities, splines, polynomials,
root finding, numerical integration, media and the registries. The property list is `properties.jsonl`; `MANIFEST.json`
maps each property to its theorems; `seeded/LOG.jsonl` records the tests of the theorems against wrong programs.

## Layout

* `lean/Verif/Model`: the definitions that model the code, function by function. Every definition cites the file and lines
  of /repo.
* `lean/Verif/Spec`: vocabulary for the statements that does not use helpers of the model (crossings of a ray with a
  body, four-momenta, angles).
* `lean/Verif/Lemmas`: helper lemmas.
* `lean/Verif/Props`: the theorems that count, named `Cnn_...` after the property, with examples that show that their
  hypotheses can be met.

Paths in comments are relative to `/repo/src/PROPOSAL/detail/PROPOSAL` for `.cxx` and `/repo/src/PROPOSAL/PROPOSAL` for
`.h` if they are not given in full.

## Conventions

* `double` is the field of real numbers. Rounding, overflow, underflow and signed zeros are not modelled. A theorem
  about numbers is a theorem about exact arithmetic. Comparisons against fixed tolerances (`GEOMETRY_PRECISION`,
  `PARTICLE_POSITION_RESOLUTION`, `COMPUTER_PRECISION`) are part of the code and are modelled with their values.
* Infinite values and NaN are modelled where a caller can supply them (energy cuts: type `Dbl`, distances of a
  propagation: `WithTop`) or where finite inputs lead to them: these have the outcome `none`, or a constructor of their own.
* Exceptions are `Except` with a constructor per exception class. Undefined behaviour (dereferencing a null pointer, reading
  past the end of a container, use after free) is a separate outcome, not an arbitrary value.
* Unsigned and fixed-width integers are `Nat` or `Int` except where wrap-around is reachable (C71), where it is modelled.
* Random numbers are a stream `ℕ → ℝ`, passed with a position. Theorems hold for every stream, or for every stream with
  values in [0,1) or (0,1) where this is stated.
* Physics that the properties do not constrain (differential cross sections, scattering offsets, interpolation tables) is a
  parameter of the model. Theorems hold for every value of it or list what they need as a hypothesis.
* `std::hash` is a parameter. Injectivity is a hypothesis where a theorem needs it.
* Heap objects are values, except where the sharing itself is the subject (C50, C77).
* Maps of the standard library are association lists with distinct or sorted keys.
* Logging and `assert` are not modelled; the release build compiles asserts out.
* Single-threaded execution.

## Model modules

| module | subject | modelled code, simplifications, left out |
|---|---|---|
| `Model/Assembled` | The propagation utility made of cross sections | Models `Propagator::CreateUtility` (`Propagator.cxx` 448-470) with the calculators themselves: `make_displacement`, `make_interaction`, `make_decay`, `make_contrand` and `make_time` without interpolation, all for the same vector of cross sections. `Model/Config.lean` has the same function with the settings only.  * The quadrature, the search for upper limits and the normal distribution are parameters, as in `Model/Calculators.lean`. * A calculator that throws, or whose search ends with a NaN, gives the energy it was called with. In the code an exception leaves   `Propagate`, so the runs of the model contain the runs of the code without exceptions. * The members of an `Integral` before a call are arbitrary (`junk`); `C146_state` shows that they do not matter. |
| `Model/AssembledTables` | The propagation utility made of cross sections, with tables | Models `Propagator::CreateUtility` (`Propagator.cxx` 448-470) for `do_interpol = true`: the calculators are `UtilityInterpolant`s whose tables are built from the integrals of `Model/Assembled.lean`.  * The cubic spline made of a function (`CubicInterpolation`, not part of the repository) and the search in it are parameters. The spline is   a function of all energies; the code has it from the lower limit up to `UPPER_ENERGY_LIM`. * Exceptions and NaN as in `Model/Assembled.lean`. The tables on disk are not modelled. |
| `Model/Box` | Box | Models `geometry/Box.cxx` 13-19, 63-282. |
| `Model/Brems` | Bremsstrahlung | `/repo/src/PROPOSAL/detail/PROPOSAL/crosssection/parametrization/Bremsstrahlung.cxx`, as formulas over the real numbers, for `0 < v < 1`. The numerical integration, the interpolated correction table of `BremsElectronScreening` and the factor of the effect of Landau, Pomeranchuk and Migdal are parameters. |
| `Model/Calculators` | The calculators behind a propagation utility | `/repo/src/PROPOSAL/detail/PROPOSAL/propagation_utility/*.cxx` and `/repo/src/PROPOSAL/PROPOSAL/propagation_utility/ContRandBuilder.h`. Rates, dE/dx and dE2/dx are arbitrary functions of the energy. Interpolation tables are arbitrary functions, the search `cubic_splines::find_parameter` of the external library is a parameter. Random numbers lie in [0, 1]; the logarithm of 0 is handled separately since it is infinite in the code. Asserts, hashes and the building of tables are left out. |
| `Model/Cascade` | The default secondary calculators applied to a track | The classes derived from `DefaultSecondaries` in `/repo/src/PROPOSAL/PROPOSAL/secondaries/parametrization`, the map that their registration builds (`DefaultFactory.h` 27-40, `RegisteredInDefault.h`) and the use of a `SecondariesCalculator` (`SecondariesCalculator.h` 38-69) for the losses that `Secondaries::GetStochasticLosses` reports. Shares which the code samples from integrals or tables are arguments. Not modelled: the exceptions of these tables for unknown components. |
| `Model/Config` | A propagator from a configuration | `Propagator(p_def, json)` (`Propagator.cxx` 42-56), `InitializeSectorFromJSON`, `CreateUtility`, `CreateCrossSectionList` and `GlobalSettings` (`Propagator.cxx` 389-546), the factories of cross sections (`/repo/src/PROPOSAL/detail/PROPOSAL/crosssection/Factories/*.cxx`), the default cross sections (`ParticleDefaultCrossSectionList.h`) and `CreateDensityDistribution` (`density_distr.cxx` 145-165).  Simplifications: * A cross section is described by the arguments with which it is built (`CrossSpec`), a propagation utility by those of `CreateUtility`. * The constructors of cuts, geometries and densities from JSON are parameters (`ConfigParts`); they are modelled in `EnergyCut.lean`,   `GeometryJson.lean` and `Density.lean`. The same for `make_scattering` (`ScatteringJson.lean`), which can fail. * Asserts are on: an array is asserted where arrays are expected, otherwise the result is `assertion`. * Exceptions of the calculations when tables are built are left out. |
| `Model/CrossBuilder` | Construction of cross sections from parametrizations | `make_crosssection` (CrossSectionBuilder.h), the classes which it chooses (CrossSectionIntegral.h, CrossSectionInterpolant.h, CrossSectionDirect.h), the traits of parametrizations (Parametrization.h 58-62, Parametrization.hpp) and the parametrizations without a differential cross section (ParametrizationDirect.h, Annihilation.h, Photoeffect.h, Photoproduction.h).  Simplifications: * Calculators of rates and losses are parameters (`CrossParts`); they are modelled in `CrossSection.lean` and `CrossTables.lean`. * Rates which are not a number count as 0 in `DirectRates`. `C148_rates` states where this makes no difference. * `volatile` objects are left out. |
| `Model/CrossSection` | Cross sections | Model of `CrossSection`, its rate and loss calculators, `CrossSectionMultiplier`, `CrossSectionVector` and the sampling of losses in `Interaction`. Hashes are natural numbers. `Integral::Integrate` is taken to be exact, i.e. the integral of the integrand. |
| `Model/CrossTables` | Cross sections with tables | The parts of `CrossSection` that depend on the argument `interpol`: the factories `make_dndx`, `make_dedx` and `make_de2dx` in `/repo/src/PROPOSAL/PROPOSAL/crosssection/CrossSectionDNDX/CrossSectionDNDXBuilder.h`, `CrossSectionDEDX/CrossSectionDEDXBuilder.h` and `CrossSectionDE2DX/CrossSectionDE2DXBuilder.h`, the tables of total losses and rates, and their use in `/repo/src/PROPOSAL/PROPOSAL/crosssection/CrossSection.h` 72-201, 289-298 and 338-364; `InitializeRateInterpolant` in `/repo/src/PROPOSAL/detail/PROPOSAL/propagation_utility/InteractionBuilder.cxx` 40-64. The splines are a parameter, as they are in the library CubicInterpolation, and so is the axis formula of its `ExpAxis`. Rates are those of all losses (`Calculate(energy)`); the components have different hashes. Files and log messages are left out. |
| `Model/Cylinder` | Cylinder | Models `geometry/Cylinder.cxx` 11-27 and 68-520. |
| `Model/Decay` | Decay | `/repo/src/PROPOSAL/detail/PROPOSAL/decay/*.cxx` and `Secondaries::GetDecayProducts` (Secondaries.cxx 52-71).  The mass of a particle state is a field of the state; in the code it is looked up by the particle type in the registry of particle definitions, which cannot contain a type twice (C57). The outcome `none` of a decay stands for products with a NaN in an energy or a direction. Log messages are left out. |
| `Model/DecayTable` | Decay tables, channels and the built-in particles | `/repo/src/PROPOSAL/detail/PROPOSAL/decay/DecayTable.cxx`, the functions `compare` and `Decay` of the channels, `/repo/src/PROPOSAL/detail/PROPOSAL/particle/ParticleDef.cxx` (tables of the built-in particles) and `Secondaries::GetDecayProducts` (Secondaries.cxx 52-71). The `std::map<double, DecayChannel*>` is a list of pairs sorted by the key. Clones of channels are equal to the original (the value of a channel never changes, except for the flag `uniform_`). Log messages are left out. |
| `Model/Deflection` | Stochastic deflection | `/repo/src/PROPOSAL/detail/PROPOSAL/scattering/stochastic_deflection`. `m` is the mass of the particle, energies are in MeV. A deflection is a pair of polar angle and azimuth; `none` stands for a NaN or an infinity among them. |
| `Model/Density` | Density distributions | `/repo/src/PROPOSAL/detail/PROPOSAL/density_distr/*.cxx`. Mass densities are different from 0, as is the length scale of the exponential distribution. `none` stands for a NaN. |
| `Model/DiffCross` | Cross sections of electrons, photons and ionization | The functions `DifferentialCrossSection` and `CalculatedNdx` of `/repo/src/PROPOSAL/detail/PROPOSAL/crosssection/parametrization/Compton.cxx`, `Annihilation.cxx` and `Ionization.cxx`. They are formulas over the real numbers; a division by zero, a logarithm or a root outside its domain is not modelled here unless `none` is returned. `PI` and `LOG10` of Constants.cxx stand for the exact numbers. |
| `Model/Dilog` | The dilogarithm | `/repo/src/PROPOSAL/detail/PROPOSAL/math/MathMethods.cxx` 78-150. Decimal constants stand for themselves, also the local `PI`; `log1p(-x)` is `log(1 - x)`. |
| `Model/EnergyCut` | Energy cuts | Model of `EnergyCutSettings` (EnergyCutSettings.cxx 17-104). The cuts may be infinite or NaN, so they get a type of their own; energies and kinematic limits are real numbers. |
| `Model/Epair` | Production of electron pairs by charged particles | `/repo/src/PROPOSAL/detail/PROPOSAL/crosssection/parametrization/EpairProduction.cxx`, as formulas over the real numbers, for `0 < v < 1` and asymmetries `-1 < ρ < 1`. The numerical integration is a parameter. |
| `Model/GeometryJson` | Geometries from JSON, comparison of geometries | `/repo/src/PROPOSAL/detail/PROPOSAL/geometry/Geometry.cxx` 44-84, the constructors from JSON and `compare` of `Sphere.cxx`, `Box.cxx` and `Cylinder.cxx`, and `GeometryFactory.cxx` 36-57. Not modelled: text output and logging. |
| `Model/Integral` | Numerical integration | `/repo/src/PROPOSAL/detail/PROPOSAL/math/Integral.cxx` 34-303, 593-1465. Not modelled: the NaN branches of `Function` and of `RombergIntegrateOpened` (functions are total real functions), the estimate of `randomX_` in `Trapezoid3S` (a parameter; its return value is that of `Trapezoid3`), `qags` (a parameter), logging, copying and comparing of `Integral` objects. |
| `Model/InterpStore` | Storing, copying and comparing of interpolation tables | `/repo/src/PROPOSAL/detail/PROPOSAL/math/Interpolant.cxx` 573-970 and 1430-1590.  Simplifications: * The content of a binary file is the list of the written values with their types. Files are written by `Save` or are beginnings of such files;   a value of another type than the one to be read counts as a failed reading. * The number of a text file is the rounded number; `Token.rounded` puts the rounding in. * Opening of files, log messages and `std::bad_alloc` are left out. * All rows of a table have the same `relative_`, `relativeY_` and kind of functions: this is so after constructors, copies and `Load`. |
| `Model/Interpolant` | Interpolation tables | `/repo/src/PROPOSAL/detail/PROPOSAL/math/Interpolant.cxx`.  Simplifications: * `c_` and `d_` are local: every call fills the entries which it reads. A read of other entries counts as `outOfRange`. * The estimates of the error (`precision_`, `worstX_`, `relative_`, ...) are left out; they do not act on values. * The abscissae of tables of functions are written as products instead of sums of steps, which are equal for real numbers. * Exceptions of the tabulated functions are left out. * Of the setters only `SetFast` is modelled, as the field `fast`. |
| `Model/Json` | JSON values | The part of the interface of `nlohmann::json` that the constructors from JSON use. |
| `Model/Kinematics` | Kinematic limits | The functions `GetKinematicLimits` and `GetLowerEnergyLim` of the parametrizations, `/repo/src/PROPOSAL/detail/PROPOSAL/crosssection/parametrization/*.cxx`. The limits are relative energy losses, for the two pair production processes of photons the share of one particle of the pair. Constants are those of `/repo/src/PROPOSAL/detail/PROPOSAL/Constants.cxx`. |
| `Model/KochMotz` | The angles of bremsstrahlung after Koch and Motz | `/repo/src/PROPOSAL/detail/PROPOSAL/secondaries/parametrization/bremsstrahlung/BremsKochMotz.cxx`: the rejection and its random numbers. The object of type `RandomGenerator` is local, but its engine is the static member `rng_` of the class (RandomGenerator.cxx 13), the one of the whole program. |
| `Model/LossAxis` | Coordinates of the fractional loss in the tables of dN/dx | `/repo/src/PROPOSAL/detail/PROPOSAL/crosssection/CrossSectionDNDX/CrossSectionDNDXInterpolant.cxx` 15-41 and the templates in `/repo/src/PROPOSAL/PROPOSAL/crosssection/CrossSectionDNDX/CrossSectionDNDXInterpolant.h` 29-64. The result `none` stands for a NaN (0/0 or 0 times infinity). Inputs are finite with 0 ≤ `vCut` ≤ `vMax` ≤ 1, as `GetIntegrationLimits` supplies them. |
| `Model/LowTables` | The tables of corrections at low energies | The numbers of `crosssection/parametrization/ParamTables.cxx` for bremsstrahlung and pair production by photons, and the interpolants made of them. |
| `Model/Medium` | Components and media | `/repo/src/PROPOSAL/detail/PROPOSAL/medium/Components.cxx` and `/repo/src/PROPOSAL/detail/PROPOSAL/medium/Medium.cxx`. The functions `std::hash<...>` are parameters. Quotients with a zero divisor are 0 here and NaN or infinite in the code; theorems that depend on them have positive numbers of atoms and atomic masses as hypotheses. The default constructors, which leave fields undefined, are not modelled. |
| `Model/MultipleScattering` | Multiple scattering | `/repo/src/PROPOSAL/detail/PROPOSAL/scattering/multiple_scattering/Highland.cxx`, `HighlandIntegral.cxx`, `Moliere.cxx`, `Parametrization.cxx` (`operator==`) and `normalppf` (`/repo/src/PROPOSAL/detail/PROPOSAL/math/MathMethods.cxx` 14-77). `erf` and `erfc` are parameters, `SQRT2` and `SQRT3` are the roots. The values of the tables of coefficients of Molière's functions (Coefficients.cxx) are parameters. A NaN or an infinity is `none` where nothing else is said. Log messages are left out. For `HighlandIntegral` the value of the integral is a parameter. |
| `Model/Names` | Names | `/repo/src/PROPOSAL/detail/PROPOSAL/methods.cxx` 42-64 and `/repo/src/PROPOSAL/detail/PROPOSAL/medium/MediumFactory.cxx`. A `std::string` is a list of bytes; the locale is the C locale. |
| `Model/NuclearCross` | Photonuclear and weak interactions | `/repo/src/PROPOSAL/detail/PROPOSAL/crosssection/parametrization/PhotoRealPhotonAssumption.cxx`, `Photonuclear.cxx` and `WeakInteraction.cxx`. The interpolated tables are parameters. `none` stands for a NaN or an infinity: a division by zero or a logarithm outside its domain. |
| `Model/PairCross` | Production of muon pairs | `/repo/src/PROPOSAL/detail/PROPOSAL/crosssection/parametrization/MupairProduction.cxx` and `PhotoMuPairProduction.cxx`, as formulas over the real numbers. The numerical integration is a parameter. |
| `Model/PairLpm` | The effect of Landau, Pomeranchuk and Migdal on electron pairs by photons | `/repo/src/PROPOSAL/detail/PROPOSAL/crosssection/parametrization/PhotoPairProduction.cxx`, as formulas over the real numbers, for `0 < x < 1`. The functions `xi`, `fi` and `G` are written there again with the same text as in `Bremsstrahlung.cxx`; the definitions made from that are used. |
| `Model/Particles` | The built-in particles | The constructors of `/repo/src/PROPOSAL/detail/PROPOSAL/particle/ParticleDef.cxx` and the builder of `/repo/src/PROPOSAL/PROPOSAL/particle/ParticleDef.h`. A constructor is its list of arguments for the constructor of `ParticleDef` (model: `constructDef`). An infinite lifetime is `none`. |
| `Model/PhotoQ2` | Photonuclear interaction with the integration over the virtuality | `/repo/src/PROPOSAL/detail/PROPOSAL/crosssection/parametrization/PhotoQ2Integration.cxx`, as formulas over the real numbers, for `0 < v < 1`, energies and virtualities above zero and a Bjorken `x` below one. `Q2` is in MeV². The numerical integration is a parameter. |
| `Model/PhotonCross` | Cross sections of photons | `/repo/src/PROPOSAL/detail/PROPOSAL/crosssection/parametrization/Photoeffect.cxx` and `Photoproduction.cxx`. `none` stands for a NaN or an infinity. A component stands for its hash. |
| `Model/PhotonPair` | Production of electron pairs by photons | `/repo/src/PROPOSAL/detail/PROPOSAL/crosssection/parametrization/PhotoPairProduction.cxx`, as formulas over the real numbers. The table of Storm and Israel and the numerical integration are parameters. `none` stands for a NaN or an infinity. The functions shared with bremsstrahlung (`Bremsstrahlung.cxx`) are written once; both places are cited. |
| `Model/Polynom` | Polynomials | `/repo/src/PROPOSAL/detail/PROPOSAL/math/Function.cxx`. A polynomial is the list of its coefficients, lowest degree first; the shared buffers of the C++ class are modelled below. |
| `Model/Propagator` | Propagator | Models `Propagator.cxx` 58-360. The physics of a sector (utility and density) is an arbitrary record of functions, the random generator an arbitrary stream. |
| `Model/RandomEngine` | The random number generator | `/repo/src/PROPOSAL/detail/PROPOSAL/math/RandomGenerator.cxx` and `math/RandomGenerator.h`, without the parts for IceCube. The engine `std::mt19937` and `std::uniform_real_distribution` belong to the standard library; they are modelled as the C++ standard defines them ([rand.eng.mers], [rand.util.canonical]), with exact instead of rounded division. |
| `Model/RateIntegral` | Rates by integration and from tables | `/repo/src/PROPOSAL/detail/PROPOSAL/crosssection/CrossSectionDNDX/CrossSectionDNDXIntegral.cxx` and `/repo/src/PROPOSAL/detail/PROPOSAL/crosssection/CrossSectionDNDX/CrossSectionDNDXInterpolant.cxx` with the integrations of Integral.cxx. The integrand is the differential cross section at the energy. The bicubic spline and the search of CubicInterpolation are parameters. |
| `Model/Registration` | Registration of secondary and deflection calculators | `/repo/src/PROPOSAL/PROPOSAL/secondaries/SecondariesCalculator.h` 17-81, `/repo/src/PROPOSAL/detail/PROPOSAL/secondaries/SecondariesCalculator.cxx`, `/repo/src/PROPOSAL/PROPOSAL/DefaultFactory.h`, the constructor of `Scattering` (`scattering/Scattering.h` 20-106) and `ScatteringMultiplier.h`. The hash maps are functions from keys to optional values. Not modelled: the text of the exceptions, cloning of the parametrizations. |
| `Model/Registry` | The registries of components, media and particles | The static maps `Component::component_map` (Components.cxx 60-64, 263-268), `Medium::medium_map` (Medium.cxx 86-92, 212-217) and `ParticleDef::Type_Particle_Map` (ParticleDef.cxx 74-88, 165-183). A map is a list of pairs with distinct keys; a null pointer is `none`. |
| `Model/Rhode` | The table of Rhode's parametrization | `PhotoproductionRhode` with its interpolant. The table is the vectors in the constructor. |
| `Model/RootFinding` | Root finding | `/repo/src/PROPOSAL/detail/PROPOSAL/math/MathMethods.cxx` 152-262 and the three axis builders that use the bisection. Functions are total real functions: a function that returns a NaN at a finite argument is not modelled. The tolerance and the number of steps are arguments as in the code. |
| `Model/ScatteringJson` | Scattering from JSON | `/repo/src/PROPOSAL/PROPOSAL/scattering/ScatteringFactory.h` and the factories of `/repo/src/PROPOSAL/PROPOSAL/scattering/multiple_scattering/ScatteringFactory.h` and `/repo/src/PROPOSAL/PROPOSAL/scattering/stochastic_deflection/ScatteringFactory.h`. The configuration is already parsed: values with the wrong JSON type are not modelled. The objects are represented by their class. |
| `Model/Secondaries` | Secondaries of stochastic losses | `/repo/src/PROPOSAL/detail/PROPOSAL/secondaries/parametrization` (the `.cxx` files below) and `/repo/src/PROPOSAL/PROPOSAL/secondaries/parametrization` (the `.h` files). A state of the model carries also the mass of its particle type. Outcome `none` stands for a NaN or an infinity among the directions. Numbers that the code takes from an integration routine (the share of a pair, the azimuth sampling of `BremsKochMotz`) are arguments. |
| `Model/Sphere` | Geometry base class and sphere | Models `geometry/Geometry.cxx` 88-166 and `geometry/Sphere.cxx` 10-24, 63-241. |
| `Model/Spline` | Splines | `/repo/src/PROPOSAL/detail/PROPOSAL/math/Spline.cxx`. Objects are values here: the pieces are lists of coefficients (the sharing of buffers between copies is the topic of `Model/Polynom.lean`). The abscissae are different, so that the divisions are defined. Reading and writing files is in `Model/SplineStore.lean`. |
| `Model/SplineStore` | Storing splines | `Spline::save`, the constructor from a file and the stream operators (`/repo/src/PROPOSAL/detail/PROPOSAL/math/Spline.cxx` 34-39, 102-169), `Table_write` and `Table_read` (`/repo/src/PROPOSAL/PROPOSAL/math/TableWriter.h` 38-95).  * A text file is a list of lines, a line a comment or a list of words. A number is printed with the   default precision of a stream; `w` is what reading the printed number gives. * Numbers of pieces and of coefficients are read into `unsigned int`; a larger number sets the fail bit and   leaves the largest `unsigned int`. * A read on a stream that has failed or ended leaves its target as it is. Where the target has no value yet   the outcome is `none` (undefined behaviour). A file that ends within a piece is `none` as well, no file   written by `save` does so. * A file can be opened for writing always, for reading when it exists. |
| `Model/Statistics` | Running mean and variance, sampling from distributions | `/repo/src/PROPOSAL/detail/PROPOSAL/math/MathMethods.cxx` 398-417. |
| `Model/Tables` | Names of the interpolation tables | Model of the names under which PROPOSAL stores interpolation tables in `InterpolationSettings::TABLES_PATH`: `methods.h` 77-83 (`hash_combine`), `CrossSection.cxx` 10-37, `CrossSection.h` 70-150 and 236-272, `CrossSectionDNDX.cxx` 22-39, `CrossSectionDNDXInterpolant.cxx` 44-61, `CrossSectionDEDX.cxx` 12-18, `CrossSectionDEDXInterpolant.cxx` 12-23, `CrossSectionDE2DX` (the same with `NODES_DE2DX`), `CrossSectionVector.h` 34-40, `CrossSectionMultiplier.h` 42-46, the hashes of the parametrizations (`Bremsstrahlung.cxx` 16-37, 436-458, 566-576; `EpairProduction.cxx` 16-58, 549-573; `PhotoPairProduction.cxx` 46-112, 338-347; `Photonuclear.cxx` 24-38; `PhotoRealPhotonAssumption.cxx` 12-37; `PhotoQ2Integration.cxx` 29-34; `Ionization.cxx` 14-17, 64, 231, 359; `WeakInteraction.cxx` 42), of particles (`ParticleDef.cxx` 250-254), media (`Medium.cxx` 201-210), components (`Components.cxx` 33-58) and cuts (`EnergyCutSettings.cxx` 99-103), and of the utilities (`PropagationUtilityInterpolant.cxx` 34-58, `DisplacmentBuilder.cxx` 15-24, `TimeBuilder.cxx` 19-29, `DecayBuilder.cxx` 15-24, `Decay.cxx` 15-22, `InteractionBuilder.cxx` 40-63, `Interaction.cxx` 10-17, `ContRand.cxx` 37-39, `HighlandIntegral.cxx` 26-41), and of the secondaries (`PhotoPairProductionInterpolant.h` 31-35, `PhotoMuPairProductionBurkhardtKelnerKokoulin.h` 29-33, `WeakCooperSarkarMertsch.cxx` 10-15).  Simplifications: * `hash_combine` is a parameter: the functions are written for any algebra with the operations "combine a string, an integer, a   floating point number, a truth value, a hash, the address of a character" (`HashAlg`). `stdAlg` is the instance of the code for given   `std::hash`; `HTerm.free` is the one in which nothing collides. * The objects for the LPM effect are built for the particle and the medium of the cross section, as in the default constructors and in   the examples of the documentation. * A table is found by its name (prefix and hash). Reading and writing files is done by the external library CubicInterpolation:   `openTable` states its contract: an existing file is read, otherwise the table is built and written. * The order in which the tables of a cross section are combined is that of an unordered map; it is an argument. |
| `Model/Time` | Time calculators | Models `propagation_utility/TimeBuilder.cxx` 32-39 and 71-76. |
| `Model/Track` | The track of a propagated particle | Models `Secondaries.cxx` 33-39, 73-122, 164-476 and the loss records of `particle/Particle.cxx` 120-142. The three vectors `track_`, `types_` and `target_hashes_` are one list of entries (they are only ever extended together, 33-50). `assert` and logging are not modelled. Decay products (52-71) are modelled in `Verif.Model.Decay`.  A normalised zero displacement is NaN in every component. No comparison with NaN succeeds, so every shape reports the distances (-1,-1) for it: it is outside of everything, and a sector lookup throws. |
| `Model/TsaiAngles` | Angles of electron pairs after Tsai | `/repo/src/PROPOSAL/detail/PROPOSAL/secondaries/parametrization/photopairproduction/PhotoPairProductionTsai.cxx`, as formulas over the real numbers. Used for photon energies above zero, shares between zero and one and charges above zero, so that nothing is divided by zero. The numerical integration is that of `Model/Integral`. |
| `Model/Utility` | Interaction types, particle states, random streams, propagation utility | Models `particle/Particle.h` 39-57, `propagation_utility/PropagationUtility.cxx` 80-183, `scattering/Scattering.h` 107-160 and the random number sources of `Propagator.cxx`. |
| `Model/Vec3` | Vectors in three dimensions | Models `math/Cartesian3D.cxx`, `math/Spherical3D.cxx`, the momentum accessors of `particle/Particle.cxx` and `ScatterInitialDirection` of `scattering/multiple_scattering/Parametrization.cxx`.  `double` is `ℝ`. |

## Not modelled

* Differential cross sections: modelled are Compton, annihilation, ionization (all parametrizations), photoproduction, photo effect,
  photonuclear with real photons and with the integration over the virtuality, weak interaction, muon pairs by charged particles and by photons, electron pairs by photons, electron pairs by charged particles, bremsstrahlung, the LPM factors of all three, and the dilogarithm. Their numerical integration over inner variables is a parameter.
* In the theorems about the propagation the results of multiple scattering and of the stochastic deflections are parameters; the distributions themselves are modelled in `Deflection.lean` and `MultipleScattering.lean`.
* The estimates of errors of `Interpolant`, and the opening of its files.
* The external libraries: CubicInterpolation (its splines are a parameter; which tables the cross sections and the propagation build and read is modelled in `CrossTables` and `Tables`), boost, nlohmann::json (only the used part of its interface), spdlog,
  Eigen. The table files on disk: only the contract "an existing file is read, otherwise the table is built and written" (`openTable`).
* Reading the text of configuration files (the model begins with JSON values), python bindings, string output of objects.
* The random number generator where random numbers enter other models; there its output is an arbitrary stream. The engine itself is modelled in `RandomEngine`.
* Destruction of objects and memory management, except for C50 and C77.

## Trusted base

* The Lean 4.33.0 kernel, and Mathlib's definitions that occur in the statements (reals, `Real.sqrt`, `Real.log`, `Real.exp`,
  `Real.arccos`, `Complex.arg`, interval integrals, polynomials, lists, finite sums).
* The reading of the C++ source by which the definitions in `Verif/Model` were written; there is no extraction or translation
  tool. Every definition names the lines it was written from so that it can be compared.
* That exact arithmetic is an acceptable idealisation of `double`.
* The axioms `propext`, `Classical.choice` and `Quot.sound`. There are no axioms of this project, no `sorry`, no
  `native_decide` and no `bv_decide`.

## Axioms per theorem

Output of `#print axioms` (`Lean.collectAxioms`) for every theorem named in MANIFEST.json. No theorem depends on `sorryAx`, `Lean.ofReduceBool`, `Lean.trustCompiler` or an axiom of this project.

* `Classical.choice`, `Quot.sound`, `propext`: all theorems except those listed next (956 theorems).
* `Quot.sound`, `propext`: `C109_clone_dangling`, `C109_clone_partial`, `C61_allowed`, `C65_last_registered`, `C77_double_delete`, `C77_single_partial`, `C92_centered`.
* `propext`: `C65_factory_first`, `C65_factory_other`, `C65_from_types`, `C65_required_unknown`, `C65_undefined_type`, `C65_unknown_partial`.

## Properties, theorems and deviations of the code

Statements are in properties.jsonl. "partial" means that the property as stated there is not proved completely. In most cases it is false of the code; the note names the theorem that proves the counterexample.

### C01 Solid sphere: reported distances are exactly the forward surface crossings

Status: proved. Modules: `Props/Sphere`. Theorems: `C01_solid_sphere_distances`.

### C02 Hollow sphere: reported distances are the nearest two crossings of the shell

Status: proved. Modules: `Props/Sphere`. Theorems: `C02_shell_distances`.

### C03 Box: reported distances are exactly the forward surface crossings

Status: partial. Modules: `Props/Box`. Theorems: `C03_box_distances_partial`, `C03_box_edge_counterexample`, `C03_box_through_edges_missed`.

The code violates the property for rays through an edge (C03_box_edge_counterexample, C03_box_through_edges_missed); the partial theorem covers all rays that avoid the edges.

### C04 Cylinder: first reported distance is the nearest forward border

Status: partial. Modules: `Props/Cylinder`. Theorems: `C04_crossings_partial`, `C04_exact_partial`, `C04_nearest_partial`, `C04_order_counterexample`, `C04_near_cap_counterexample`, `C04_rim_counterexample`.

The code violates the property for a ray that goes through an opening of the hole (C04_order_counterexample), for starts closer than the precision to a cap of a hollow cylinder (C04_near_cap_counterexample) and for rays that touch a rim (C04_rim_counterexample). For all other rays the crossings are reported exactly.

### C05 In front / inside / behind is a partition

Status: proved. Modules: `Props/Box`, `Props/Cylinder`, `Props/Sphere`. Theorems: `C05_box_valid`, `C05_cylinder_valid`, `C05_location_partition`, `C05_leaving_reversed`, `C05_sphere_valid`.

### C06 Inside means inside

Status: partial. Modules: `Props/Box`, `Props/Cylinder`, `Props/Sphere`. Theorems: `C06_box_inside_partial`, `C06_cylinder_inside_partial`, `C06_sphere_inside`, `C06_sphere_inside_direction_free`.

Spheres are covered completely; boxes for rays that avoid the edges; cylinders for lines that avoid the rims and, with a hole, for starts that are not within the precision outside of the material. In the cases left out the property is false (C03_box_edge_counterexample, C04_rim_counterexample, C04_near_cap_counterexample).

### C07 Closest-approach distance minimises the distance to the centre

Status: proved. Modules: `Props/Sphere`. Theorems: `C07_closest_approach`.

### C08 The active sector is a containing sector of maximal hierarchy

Status: proved. Modules: `Props/Sector`. Theorems: `C08_current_sector`.

### C09 A step never crosses into a region of higher hierarchy unnoticed

Status: proved. Modules: `Props/Sector`, `Props/StepEvents`. Theorems: `C09_border_distance`, `C09_border_reached`.

### C10 The next interaction is the one reached at the highest energy

Status: proved. Modules: `Props/Sector`, `Props/StepEvents`. Theorems: `C10_next_interaction`, `C10_decay_reached`, `C10_minimum_reached`, `C10_interaction_reached`.

### C11 A continuous step always terminates within the step limit

Status: proved. Modules: `Props/Step`. Theorems: `C11_step_terminates`, `C11_no_logic_error`, `C11_logic_error_after_overshoot`.

### C12 The propagated distance never exceeds the requested maximum

Status: partial. Modules: `Props/Monotone`, `Props/Overshoot`, `Props/StepEvents`. Theorems: `C12_step_distance_partial`, `C12_max_distance_partial`, `C12_overshoot`, `C12_end_reached`.

The code violates the property (C12_overshoot). The partial theorems: only a border step can exceed the requested distance.

### C13 Distance and time never decrease along a track

Status: partial. Modules: `Props/Monotone`, `Props/Overshoot`. Theorems: `C13_distance_time_energy_partial`, `C13_distance_decreases`.

The code violates the property (C13_distance_decreases). The partial theorem covers regular runs: no overshoot and no emergency exit.

### C14 Energy never increases along a track

Status: partial. Modules: `Props/Monotone`, `Props/Overshoot`. Theorems: `C14_reported_fraction`, `C14_energy_never_increases_partial`, `C14_energy_raised_to_minimum`.

The energy can increase after an overshoot (C13_distance_decreases) and when it starts below the minimum (C14_energy_raised_to_minimum). The reported-fraction part is proved for all runs, monotonicity for regular runs.

### C15 Track shape

Status: proved. Modules: `Props/Run`. Theorems: `C15_track_head`, `C15_track_shape`, `C15_stop_reason`.

### C16 Steps are straight and consistent with the propagated distance

Status: proved. Modules: `Props/Run`. Theorems: `C16_step_straight`, `C16_track_straight`, `C16_polyline_length`.

### C17 Repeated trials of one step see the same random numbers

Status: proved. Modules: `Props/Random`. Theorems: `C17_numbers_of_trial`, `C17_consumed`.

### C18 Hierarchy condition stops exactly at the outward crossing

Status: proved. Modules: `Props/Run`. Theorems: `C18_hierarchy_condition`.

### C19 Energy balance of a track

Status: proved. Modules: `Props/Losses`. Theorems: `C19_energy_balance`, `C19_energy_balance_of_propagation`.

### C20 Loss lists partition the track

Status: proved. Modules: `Props/CallEdges`, `Props/Losses`. Theorems: `C20_track_in`, `C20_partition`, `C20_stochastic_content`, `C20_continuous_content`, `C20_by_type`, `C20_by_name`, `C20_by_geometry`.

### C21 State lookup by energy

Status: proved. Modules: `Props/Lookup`. Theorems: `C21_state_for_energy`.

### C22 State lookup by distance

Status: proved. Modules: `Props/Lookup`. Theorems: `C22_state_for_distance`.

### C23 Re-propagation yields the same time as propagation

Status: partial. Modules: `Props/Lookup`. Theorems: `C23_exact_time_partial`, `C23_faster_than_light`.

The code violates the property for the approximate time calculator (C23_faster_than_light: the lookup passes a distance where a grammage is expected); the partial theorem covers the exact time calculator.

### C24 Entry and exit points lie on the border of the geometry

Status: proved. Modules: `Props/Passage`. Theorems: `C24_entry_point`, `C24_exit_point`, `C24_energy_lost`, `C24_entry_on_surface`, `C24_exit_on_surface`.

### C25 Closest approach point minimises the distance to the geometry centre along the track

Status: partial. Modules: `Props/Approach`. Theorems: `C25_on_track`, `C25_straight_track_partial`, `C25_not_closest`.

The code violates the property for bent tracks (C25_not_closest); the returned state is always on the track, and for straight tracks it is the nearest point up to 1e-3.

### C26 HitGeometry is sound and complete for solid spheres

Status: proved. Modules: `Props/Approach`. Theorems: `C26_hit_sound`, `C26_hit_complete`.

### C27 Energy cut validation and evaluation

Status: partial. Modules: `Props/EnergyCut`. Theorems: `C27_construction_partial`, `C27_nan_accepted`, `C27_json`, `C27_cut_value`, `C27_cut_antitone`, `C27_cut_in_limits`.

Cuts given as NaN are accepted by the constructor (C27_nan_accepted); everything else is proved.

### C28 Equal cuts have equal hashes

Status: proved. Modules: `Props/EnergyCut`. Theorems: `C28_equal_hash`, `C28_flag_not_hashed`, `C28_equality`.

### C29 Continuous and stochastic losses tile the kinematic range

Status: proved. Modules: `Props/Tiling`. Theorems: `C29_tiling`, `C29_cumulative`, `C29_without_cut`, `C29_only_continuous`, `C29_compton`, `C29_epair`.

### C30 Kinematic limits are ordered and physical

Status: partial. Modules: `Props/KinematicEdges`, `Props/Kinematics`. Theorems: `C30_root_of_e`, `C30_brems_remainder`, `C30_lorenz`, `C30_epair_edges`, `C30_compton_backwards`, `C30_ionization_head_on`, `C30_ionization_smallest`, `C30_electrons_edges`, `C30_mupair_edges`, `C30_photo_pair_edges`, `C30_photonuclear_pion`, `C30_photonuclear_remainder`, `C30_weak_smallest`, `C30_lowest_energies`, `C30_bremsstrahlung`, `C30_compton`, `C30_bhabha_moller`, `C30_mupair`, `C30_photo_pairs`, `C30_epair_partial`, `C30_epair_threshold`, `C30_ionization_partial`, `C30_ionization_threshold`, `C30_photonuclear_partial`, `C30_photonuclear_heavy`, `C30_photonuclear_threshold`, `C30_weak_partial`, `C30_weak_small_energy`.

Proved completely for bremsstrahlung, Compton, Bhabha, Moller, muon pair production and photon pair production. Violated near threshold for electron pair production, ionization, photonuclear and weak interaction and everywhere for photonuclear interactions of particles heavier than the pion (counterexamples proved); the remaining part is proved.

### C31 Component weights sum to one

Status: partial. Modules: `Props/Rates`. Theorems: `C31_weights`, `C31_mean_rate_partial`, `C31_mean_loss`, `C31_repeated_component`.

The code violates the property for a medium with a repeated component (C31_repeated_component: the stochastic rate is halved, the continuous loss is not); proved for components with different hashes.

### C32 Total rate is the sum of target rates

Status: proved. Modules: `Props/CallEdges`, `Props/Rates`. Theorems: `C32_medium`, `C32_keyed`, `C32_total_rate`, `C32_sampling_unweighted`, `C32_cumulative`, `C32_interaction_total`.

### C33 A cross-section multiplier rescales rates and nothing else

Status: proved. Modules: `Props/Rates`. Theorems: `C33_rates_scale`, `C33_common_multiplier`, `C33_loss_distribution`, `C33_zero_multiplier`.

### C34 Loss sampling is inverse-CDF

Status: proved. Modules: `Props/Rates`. Theorems: `C34_selects_interval`, `C34_exactly_one`, `C34_probability`, `C34_no_interaction`.

### C35 Loss axis transformations are inverse bijections

Status: proved. Modules: `Props/LossAxis`. Theorems: `C35_inverse_bijections`, `C35_edges`, `C35_clamped`, `C35_degenerate`.

### C36 Two-body decay conserves energy and momentum

Status: partial. Modules: `Props/Decay`. Theorems: `C36_two_body_partial`, `C36_at_rest`.

The code violates the property when a daughter is at rest: its direction is NaN (C36_at_rest); proved for every decay whose daughters are not at rest in the laboratory.

### C37 Kinematically forbidden decays are not performed

Status: partial. Modules: `Props/Decay`. Theorems: `C37_momentum_partial`, `C37_forbidden`, `C37_performed`.

The code violates the property for parents lighter than the mass difference of the daughters (C37_performed); proved otherwise.

### C38 Boost is a Lorentz transformation

Status: proved. Modules: `Props/Decay`. Theorems: `C38_boost`, `C38_boost_defined`, `C38_boost_inverse`.

### C39 Decay channel selection follows branching ratios

Status: partial. Modules: `Props/DecayTable`. Theorems: `C39_select`, `C39_complete`, `C39_reachable`, `C39_order`, `C39_stable_partial`, `C39_stable_lost`, `C39_empty`.

Intervals, completeness and order are proved for every table with positive sum; the code violates the property for empty tables (C39_empty) and for a stable table with a channel added (C39_stable_lost).

### C40 Adding a decay channel keeps the existing channels

Status: partial. Modules: `Props/DecayTable`. Theorems: `C40_add_partial`, `C40_all_partial`, `C40_replaced`.

The code violates the property: a channel with an equal branching ratio is replaced (C40_replaced); proved for different branching ratios.

### C41 Compton secondaries conserve energy and momentum

Status: proved. Modules: `Props/Secondaries`. Theorems: `C41_compton`.

### C42 Ionization secondaries conserve energy and momentum

Status: partial. Modules: `Props/Secondaries`. Theorems: `C42_ionization`, `C42_electron_partial`, `C42_at_limit`.

The code violates the property for a positron that loses all its kinetic energy (C42_at_limit); proved for all losses within the limits of heavy particles and below the limit of positrons.

### C43 Annihilation secondaries conserve energy and momentum

Status: proved. Modules: `Props/Secondaries`. Theorems: `C43_share`, `C43_annihilation`.

### C44 Secondary energies add up to the loss

Status: partial. Modules: `Props/NewTracks`, `Props/Secondaries`. Theorems: `C44_photomupair_angle`, `C44_bremsstrahlung`, `C44_epair`, `C44_mupair`, `C44_photonuclear_partial`, `C44_tau`, `C44_hadronic`, `C44_photoeffect`, `C44_photopair`, `C44_photomupair_partial`, `C44_naiv_epair`.

The code violates the property for photonuclear interactions of taus (C44_tau), for muon pairs from photons (C81_muon_pairs_light) and for NaivEpairProduction (C44_naiv_epair); proved for bremsstrahlung, electron and muon pairs, electron pairs from photons, photoeffect, photoproduction, weak and the other photonuclear interactions. Sampled shares are assumed to lie in the range given to the sampling routine.

### C45 Deflection keeps unit length and realises the requested angle

Status: proved. Modules: `Props/Vec3`. Theorems: `C45_deflect_unit`, `C45_deflect_angle`, `C45_deflect_azimuth`, `C45_deflect_extreme`.

### C46 Multiple scattering yields unit directions

Status: partial. Modules: `Props/Vec3`. Theorems: `C46_scatter_not_unit`, `C46_scatter_unit_partial`.

The code violates the property (C46_scatter_not_unit is the counterexample); the partial theorem covers offsets with sx^2+sy^2<=1.

### C47 Spherical and Cartesian coordinates convert back and forth

Status: proved. Modules: `Props/Vec3`. Theorems: `C47_cartesian_round_trip`, `C47_spherical_round_trip`.

### C48 Momentum and energy of a particle are consistent

Status: proved. Modules: `Props/Vec3`. Theorems: `C48_momentum_round_trip`, `C48_energy_round_trip`.

### C49 Polynomial evaluation, derivative, antiderivative and shift

Status: partial. Modules: `Props/Polynom`. Theorems: `C49_evaluate`, `C49_derivative`, `C49_derivative_evaluates_partial`, `C49_constant_derivative`, `C49_antiderivative`, `C49_shift_partial`, `C49_tiny_shift`, `C49_shift_degree`.

The derivative of a constant polynomial cannot be evaluated (C49_constant_derivative) and shifts of at most 1e-9 are skipped (C49_tiny_shift); everything else is proved.

### C50 Copies of polynomials are independent

Status: partial. Modules: `Props/Polynom`. Theorems: `C50_copy_shares_buffer`, `C50_separate_objects_partial`.

The code violates the property: copies share their coefficients (C50_copy_shares_buffer). Proved for separately constructed polynomials.

### C51 Root bracketing

Status: partial. Modules: `Props/RootFinding`. Theorems: `C51_bisection`, `C51_bisection_root`, `C51_newton_throws`, `C51_newton_in_bracket_partial`, `C51_newton_nan`.

The bisection part is proved. The Newton-Raphson solver returns a NaN when it meets a root with vanishing derivative (C51_newton_nan); otherwise it stays in its bracket.

### C52 Streaming mean and variance

Status: proved. Modules: `Props/Statistics`. Theorems: `C52_running_moments`, `C52_variance_nonneg`.

### C53 Truncated sampling stays in range and is monotone

Status: partial. Modules: `Props/Statistics`. Theorems: `C53_gaussian_in_range_partial`, `C53_gaussian_monotone`, `C53_gaussian_distribution`, `C53_zero_width`, `C53_exponential`.

For a vanishing width the Gaussian sampler ignores the limits (C53_zero_width); proved for positive widths with an exact normal distribution function and quantile function as parameters.

### C54 Distance and grammage are inverse to each other

Status: partial. Modules: `Props/Density`. Theorems: `C54_homogeneous`, `C54_exponential_partial`, `C54_exponential_additive_partial`, `C54_perpendicular`.

Perpendicular to the axis an exponential density gives NaN and exceptions (C54_perpendicular), and with a radial axis its grammage is not additive; homogeneous densities and all other exponential cases are proved.

### C55 Polynomial density integrates the density it evaluates

Status: partial. Modules: `Props/Density`. Theorems: `C55_polynomial_partial`, `C55_spline_partial`, `C55_negative_grammage`, `C55_radial`.

The code violates the property: the integral is divided by the cosine once too often (C55_negative_grammage); proved for flight along the axis, with the exact deviation for all other directions of a Cartesian axis. C55_radial disproves it for a radial axis: flying inward gives the grammage of flying outward.

### C56 Equal density distributions behave equally

Status: partial. Modules: `Props/Density`. Theorems: `C56_equal_partial`, `C56_homogeneous`, `C56_axis_ignored`.

The code violates the property: direction and kind of the axis are not compared (C56_axis_ignored); proved for equal axes and for homogeneous densities.

### C57 Registered media, components and particles are found by their key

Status: proved. Modules: `Props/Registry`. Theorems: `C57_media_found`, `C57_media_kept`, `C57_media_unknown`, `C57_media_none`, `C57_components`, `C57_particle_found`, `C57_particle_conflict`, `C57_particle_kept`, `C57_particle_unknown`.

C57_media_none records that the lookup dereferences nothing and returns null before any medium was made; the static table of MediumFactory makes media at load time

### C58 Lookup by hash returns the medium that was registered

Status: partial. Modules: `Props/Registry`. Theorems: `C58_same_numbers_partial`, `C58_equal_partial`, `C58_comparison`, `C58_components_hashed`, `C58_other_name`.

Equal media have equal hashes and equal numbers; C58_other_name: the name is not part of the hash, so two media which differ in their name have the same hash and the second replaces the first in the registry

### C59 Case-insensitive names form a consistent ordering

Status: partial. Modules: `Props/Names`. Theorems: `C59_strict_weak_order`, `C59_equivalence`, `C59_map_lookup`, `C59_non_ascii`.

Proved for ASCII strings; C59_non_ascii: bytes above 127 are passed to tolower as negative numbers, which is undefined

### C60 Propagation utility without optional parts

Status: proved. Modules: `Props/Calculators`, `Props/CallEdges`. Theorems: `C60_required`, `C60_decay`, `C60_randomisation`, `C60_scattering`, `C60_calls`, `C60_randomised`, `C60_deflection`, `C60_no_deflection`.

the calculators are arbitrary functions

### C61 Continuous randomisation keeps the energy in range

Status: partial. Modules: `Props/Calculators`. Theorems: `C61_randomised_in_range_partial`, `C61_no_variance`, `C61_zero_variance`, `C61_randomised_order`, `C61_allowed`.

for a positive variance, random numbers from 0 to 1 and an exact normal distribution (C138_exact shows that there is one, C138_gaussian that the code differs from it by 1e-11 widths); without variance an energy below the minimum stays there (proved)

### C62 Interaction and decay energies lie between lower limit and current energy

Status: partial. Modules: `Props/Calculators`. Theorems: `C62_interaction_in_range`, `C62_decay_in_range`, `C62_interaction_law_partial`, `C62_interaction_order_partial`, `C62_decay_law_partial`, `C62_decay_order_partial`, `C62_table_interaction_in_range_partial`, `C62_table_decay_in_range_partial`, `C62_table_interaction_law_partial`, `C62_narrow_error`, `C62_table_error`, `C62_negative_lifetime`.

the range holds for any numerics that are symmetric in the nodes; the law and the order need exact integrations and an energy apart from the lower limit. Proved deviations: std::logic_error close above the lower limit, MathException of the interpolated calculation within a millionth of the lower limit, particles with lifetime -1 never decay

### C63 Integration orientation

Status: proved. Modules: `Props/Integral`. Theorems: `C63_orientation`, `C63_equal_limits`, `C63_no_memory`.

for Integrate; the variant with a random ratio is covered by C96

### C64 Neville extrapolation is exact on polynomials

Status: proved. Modules: `Props/Neville`. Theorems: `C64_neville`, `C64_polynomial_exists`.

Interpolate of Integral on the nodes used by the Romberg integrations

### C65 Secondary calculators and deflection registries

Status: partial. Modules: `Props/Registration`. Theorems: `C65_last_registered`, `C65_unknown_partial`, `C65_undefined_type`, `C65_required_unknown`, `C65_factory_first`, `C65_factory_other`, `C65_from_types`, `C65_no_deflection`, `C65_deflection_last`, `C65_multiplier`, `C65_multiplier_assertion`.

last registration wins and unknown types raise an exception, except that the type Undefined and RequiredRandomNumbers of an unknown type dereference an end iterator (proved)

### C66 A sphere or cylinder read from JSON keeps its stated inner radius

Status: partial. Modules: `Props/GeometryJson`. Theorems: `C66_sphere_partial`, `C66_fraction_dropped`, `C66_negative_accepted`, `C66_above_accepted`, `C66_sphere_ordered`, `C66_cylinder_partial`, `C66_cylinder_unchecked`.

for whole inner radii; a fraction of the inner radius is dropped, so that inner radii between -1 and 0 and some above the outer radius are accepted, and without assertions a cylinder accepts everything (proved)

### C67 Continuous randomisation is independent of the scattering

Status: partial. Modules: `Props/Random`. Theorems: `C67_randomisation_reuses_scattering_number`.

The code violates the property: C67_randomisation_reuses_scattering_number shows that the smearing always uses the first scattering number of the step when scattering is active.

### C68 Without scattering a step needs at most two trials

Status: proved. Modules: `Props/Step`. Theorems: `C68_two_trials`.

### C69 HitGeometry detects hollow spheres

Status: partial. Modules: `Props/Approach`. Theorems: `C69_hollow_hit_missed`.

The code violates the property: C69_hollow_hit_missed is the counterexample. C26 covers solid spheres.

### C70 The lower limit of a set of cross sections is the smallest one

Status: proved. Modules: `Props/Rates`. Theorems: `C70_lower_limit`.

### C71 Tables begin where the tabulated quantity becomes positive

Status: partial. Modules: `Props/RootFinding`. Theorems: `C71_table_begin_partial`, `C71_variance_table_begin_partial`, `C71_positive_everywhere`.

The code violates the property for the dE2/dx tables when the first node already has a positive value (C71_positive_everywhere: unsigned wrap around); proved for the other tables and for dE2/dx that vanishes at the first node.

### C72 Splines interpolate their nodes

Status: partial. Modules: `Props/Spline`. Theorems: `C72_linear`, `C72_linear_nodes`, `C72_cubic_nodes_partial`, `C72_cubic_tiny`.

Linear splines are covered completely. Cubic splines miss their nodes when an abscissa is within 1e-9 of zero (C72_cubic_tiny); proved for all others.

### C73 Cubic splines are natural and twice continuously differentiable

Status: partial. Modules: `Props/Spline`. Theorems: `C73_cubic_smooth_partial`.

Abscissae within 1e-9 of zero but different from it are excluded, since the shift of the piece is skipped there.

### C74 The antiderivative of a spline integrates it

Status: proved. Modules: `Props/Spline`. Theorems: `C74_antiderivative`, `C74_integrable`.

### C75 The derivative of a spline is its slope

Status: partial. Modules: `Props/Spline`. Theorems: `C75_derivative_no_effect`, `C75_derivative_wrong`.

The code violates the property: Derivative has no effect (C75_derivative_no_effect, C75_derivative_wrong).

### C76 Splines can be made from polynomials

Status: partial. Modules: `Props/Spline`. Theorems: `C76_between_knots_partial`, `C76_beyond_last_knot`, `C76_antiderivative`.

The code violates the property: vectors are read out of range beyond the last knot (C76_beyond_last_knot) and in Antiderivative (C76_antiderivative); proved between the knots.

### C77 Copies of spline densities are independent objects

Status: partial. Modules: `Props/Density`. Theorems: `C77_double_delete`, `C77_single_partial`.

The code violates the property: copies share their splines and both delete them (C77_double_delete).

### C78 Density distributions can be read from JSON

Status: partial. Modules: `Props/Density`. Theorems: `C78_no_polynomial`, `C78_exponential_partial`.

The code violates the property: no JSON value yields a polynomial density (C78_no_polynomial); exponential densities are proved.

### C79 Exponential density integrates the density it evaluates

Status: partial. Modules: `Props/Density`. Theorems: `C79_exponential_partial`, `C79_radial_wrong`.

The code violates the property for radial axes (C79_radial_wrong) and for perpendicular flight (C54_perpendicular); proved for Cartesian axes otherwise.

### C80 Polynomial and spline densities find the distance for a grammage

Status: partial. Modules: `Props/Density`. Theorems: `C80_correct_partial`, `C80_no_distance`.

The code violates the property: with the wrong derivative the result can be a NaN (C80_no_distance); proved are the range of the result and the condition for the exception.

### C81 Pair particles from photons have at least their rest energy

Status: partial. Modules: `Props/Kinematics`. Theorems: `C81_electron_pairs`, `C81_muon_pairs_light`, `C81_muon_pairs_partial`.

The code violates the property for muon pairs (C81_muon_pairs_light, all energies above six muon masses); proved for electron pairs and for muon pairs up to 5.6 muon masses.

### C82 Leptonic decays conserve energy and momentum

Status: partial. Modules: `Props/Leptonic`. Theorems: `C82_leptonic_partial`.

Never throws and conserves whenever the products are not NaN; they are NaN if the fraction is exactly 1 or the lepton is at rest in the laboratory.

### C83 The energy fraction of a leptonic decay is drawn from the stated spectrum

Status: partial. Modules: `Props/Leptonic`. Theorems: `C83_derivative`, `C83_increasing`, `C83_fraction_partial`.

Derivative, monotonicity and uniqueness are proved for all masses; that the search returns an allowed fraction is proved if the lepton mass is at most half the maximal lepton energy (true for all built-in muon and tau decays), so that the fixed start value 1/2 is allowed; a start value outside the bracket is not covered.

### C84 Many body decays conserve energy and momentum

Status: partial. Modules: `Props/ManyBody`. Theorems: `C84_many_body_partial`, `C84_massless`.

Proved for all products that are not NaN; a product at rest in one of the frames has NaN directions (see C36_at_rest). Existence is proved for massless daughters (C84_massless).

### C85 Many body decays follow the matrix element

Status: partial. Modules: `Props/ManyBody`. Theorems: `C85_weight`, `C85_uniform`, `C85_extremes`, `C85_dimension`, `C85_custom_element`.

The code violates the property for matrix elements of the user (C85_custom_element); proved for the default one.

### C86 Equal decay channels decay equally

Status: partial. Modules: `Props/DecayTable`. Theorems: `C86_equal_partial`, `C86_kinds_partial`, `C86_leptonic`, `C86_many_body`.

The code violates the property for leptonic (C86_leptonic) and many body channels (C86_many_body); proved for two body and stable channels.

### C87 Unstable built-in particles have physical decay tables

Status: partial. Modules: `Props/DecayTable`. Theorems: `C87_allowed`, `C87_no_channel_lost`, `C87_no_decay`, `C87_products_partial`, `C87_mesons`.

The code violates the property for pions and kaons (C87_mesons); proved for muons and taus, except for products with NaN directions.

### C88 Annihilation photons follow the cross section

Status: partial. Modules: `Props/Secondaries`. Theorems: `C88_root_partial`, `C88_high_energies`.

The code violates the property at high energies (C88_high_energies); proved with the absolute precision of the search.

### C89 Sauter sampling inverts its distribution

Status: partial. Modules: `Props/Secondaries`. Theorems: `C89_sauter`, `C89_backward`.

The code violates the property for the random number 0 (C89_backward); the inversion is proved for all random numbers.

### C90 Candidates for bremsstrahlung angles invert their distribution

Status: proved. Modules: `Props/Secondaries`. Theorems: `C90_candidate`.

### C91 Media by name

Status: partial. Modules: `Props/Names`. Theorems: `C91_media_by_name`, `C91_unknown_name`, `C91_calcium_carbonate`.

Every name of the table is found and every other string rejected; C91_calcium_carbonate: CalciumCarbonate is a value of the enumeration without a name in the table

### C92 Centered text

Status: proved. Modules: `Props/Names`. Theorems: `C92_centered`.

### C93 Averages over the components of a medium

Status: partial. Modules: `Props/Medium`. Theorems: `C93_density`, `C93_order`, `C93_scaling`, `C93_averages`, `C93_radiation_length`, `C93_fractional_charge`.

Order, scaling and averages hold; C93_fractional_charge: the radiation length uses the charge cut to a whole number

### C94 Particle types have a definition

Status: partial. Modules: `Props/Registry`. Theorems: `C94_builtin_particles`, `C94_undefined_types`.

All other types have a definition which stays; C94_undefined_types: None, STauMinus, STauPlus and Hadron have none

### C95 Integration methods give the integral

Status: partial. Modules: `Props/IntegralExact`. Theorems: `C95_integral_partial`, `C95_narrow`, `C95_log_nonpositive`, `C95_infinite_limit`.

the Romberg integrations are assumed exact (C97 shows when they are); limits closer than the precision give 0 and logarithmic methods with non-positive limits give 0 without an exception, both proved as deviations

### C96 Upper limit of an integral for a random number

Status: partial. Modules: `Props/UpperLimit`, `Props/UpperSearch`. Theorems: `C96_search_in_range`, `C96_ratio_partial`, `C96_value_partial`, `C96_narrow_logarithm`, `C96_second_call`, `C96_zero_integrand`, `C96_without_integral`, `C96_search_partial`, `C96_converged`.

the range holds for any numerics; the value needs exact integrations and a successful search (C96_ratio_partial, C96_value_partial). For exact integrations of an integrand that keeps its sign the search succeeds up to the precision times the ratio of the largest and smallest integrand, if it may take enough steps or more steps change nothing (C96_search_partial, C96_converged); the 20 steps of the code need not be enough. Proved deviations: narrow logarithmic limits give the logarithm of a limit, a second call gives another value, a vanishing integrand gives NaN

### C97 Romberg integration is exact on polynomials

Status: proved. Modules: `Props/Romberg`, `Props/RombergPrecision`. Theorems: `C97_romberg_polynomials`, `C97_precision`.

exact arithmetic; exact on polynomials (C97_romberg_polynomials), and for other functions the stated precision is that of leaving out a node of the extrapolation (C97_precision)

### C98 Romberg integration stays in its arrays

Status: partial. Modules: `Props/Romberg`. Theorems: `C98_in_bounds_partial`, `C98_out_of_bounds`.

in bounds if maxSteps_upper_limit is at least 12; a smaller number writes out of bounds (proved)

### C99 Energy after a length and length to an energy belong together

Status: partial. Modules: `Props/CalculatorsTrack`. Theorems: `C99_length_partial`, `C99_length_additive_partial`, `C99_energy_partial`, `C99_round_trip_partial`, `C99_too_far_partial`, `C99_table_length_partial`, `C99_table_energy_partial`, `C99_table_round_trip_partial`, `C99_narrow_limits`, `C99_narrow_witness`.

exact integrations and exact tables, and energies that differ by more than the precision of the integration or of the tables. Just above the lower limit the code differs: where the logarithms of the energies are closer than the precision but the energies are not, the energy after any length is the logarithm of the lower limit (C99_narrow_limits, C99_narrow_witness)

### C100 Nothing is faster than light

Status: partial. Modules: `Props/CalculatorsTrack`. Theorems: `C100_slower_than_light_partial`.

exact integrations, final energy above the mass, energies that differ by more than the precision of the integration

### C101 Mean free path

Status: proved. Modules: `Props/CalculatorsTrack`. Theorems: `C101_mean_free_path`, `C101_mean_free_path_table`.

without a table a negative rate gives a negative path

### C102 Geometries from JSON equal those of the constructors

Status: partial. Modules: `Props/GeometryJson`, `Props/JsonEdges`. Theorems: `C102_equality`, `C102_sphere_partial`, `C102_box_partial`, `C102_cylinder_partial`, `C102_radii`, `C102_rejected`, `C102_negative_hierarchy`, `C102_any_case`, `C102_distances`, `C102_no_origin`, `C102_no_shape`, `C102_cylinder_missing`.

distances agree for whole inner radii (see C66); the objects compare equal only if the shape is written with a capital letter, and a negative hierarchy wraps around (proved)

### C103 Ionization deflects like an elastic collision

Status: partial. Modules: `Props/Deflection`. Theorems: `C103_elastic`, `C103_defined`, `C103_within_limits`, `C103_at_rest`, `C103_secondaries`.

a loss that leaves the particle at rest, the limit of positrons, gives a NaN (proved)

### C104 Bremsstrahlung angles are sampled from the stated density

Status: proved. Modules: `Props/Deflection`. Theorems: `C104_range`, `C104_azimuth`, `C104_inverse`, `C104_monotone`.

### C105 Photonuclear angles are sampled within their kinematic limits

Status: partial. Modules: `Props/Deflection`. Theorems: `C105_sampled`, `C105_within_limits`, `C105_tau`.

for particles lighter than a pion; for taus the limits allow losses whose deflection is a NaN (proved)

### C106 Van Ginneken's angles have the published spread

Status: partial. Modules: `Props/Ginneken`. Theorems: `C106_angle`, `C106_mean_square`, `C106_beyond_pi`, `C106_epair`, `C106_photo`, `C106_epair_monotone`, `C106_photo_monotone`, `C106_at_rest`, `C106_brems_monotone`, `C106_brems_soft`.

nothing bounds the angle by pi (proved)

### C107 Van Ginneken's bremsstrahlung always gives an angle

Status: partial. Modules: `Props/Ginneken`. Theorems: `C107_defined_partial`, `C107_throws`.

the exception is confined to 5e-5 above a boundary and reachable (proved)

### C108 Highland's multiple scattering

Status: partial. Modules: `Props/Highland`. Theorems: `C108_symmetric`, `C108_refined`, `C108_outside`, `C108_theta0`, `C108_value`, `C108_vanishing`, `C108_bounds`, `C108_integral_bracket`, `C108_log_factors`, `C108_covariance`, `C108_space_angle`, `C108_offsets_symmetric`, `C108_random_zero`.

a random number 0 gives NaN offsets (proved); the accuracy of the normal quantile is C138

### C109 Scattering objects can be compared and cloned

Status: partial. Modules: `Props/Highland`. Theorems: `C109_highland_equal`, `C109_undefined`, `C109_symmetric_partial`, `C109_clone_partial`, `C109_clone_dangling`.

Highland == Moliere with the same mass dereferences a null pointer, Highland equals HighlandIntegral, and clones of HighlandIntegral use the destroyed original (proved)

### C110 Moliere's parameter solves its equation

Status: partial. Modules: `Props/Moliere`, `Props/MoliereTail`. Theorems: `C110_solves`, `C110_thin`, `C110_spurious`, `C110_thin_layer`, `C110_chi_c`, `C110_chi_a`, `C110_compound`, `C110_prefactor`, `C110_thin_offsets`, `C110_no_matter`.

for thin layers without a solution the iteration can give arbitrarily large values (proved); for compounds the square of the angle is not the sum over the atoms (proved, 8 percent for water)

### C111 Moliere objects do not remember earlier calls

Status: partial. Modules: `Props/MoliereSampling`. Theorems: `C111_history`, `C111_comparison`, `C111_all_components`.

the offsets do not depend on earlier calls; a used object differs from a new one in comparisons (proved)

### C112 Moliere angles follow Moliere's distribution

Status: partial. Modules: `Props/MoliereSampling`, `Props/MoliereTail`. Theorems: `C112_symmetric`, `C112_symmetric_code`, `C112_median`, `C112_residual_partial`, `C112_density`, `C112_max_index_partial`, `C112_max_index`, `C112_planes`, `C112_interpol`, `C112_interpol_beyond`, `C112_tail_second`, `C112_junction`, `C112_tail_first`, `C112_normalized`.

the convergence of the iteration is not proved; with three components the start value can belong to a lighter one (proved); at the junction of the second term the distribution function is not the integral of the density (proved), beyond 12 the first term is so up to the order u^-9

### C113 Scattering from a configuration

Status: partial. Modules: `Props/ScatteringJson`. Theorems: `C113_multiple`, `C113_deflection`, `C113_type`, `C113_no_default`, `C113_unknown`, `C113_object`, `C113_factors_partial`, `C113_case_of_keys`.

keys of factors that differ only in case: the first one acts (proved); types without default deflection give std::logic_error (proved); values of wrong JSON type are not modelled

### C114 A sampled loss carries the requested rate

Status: partial. Modules: `Props/RateIntegral`. Theorems: `C114_integral_partial`, `C114_monotone_partial`, `C114_zero_lower_limit`, `C114_negative_loss`, `C114_beyond`, `C114_nodes_partial`, `C114_table_rates_partial`, `C114_table_loss_partial`, `C114_table_below`, `C114_table_beyond`.

Exact integrations, exact searches and exact tables are assumed, and limits that are separated by a hundred millionth: the code returns the logarithm of the lower limit as loss for limits that are close (C114_negative_loss), gives rates of 0 and throws for general processes whose losses start at 0 (C114_zero_lower_limit), and does not limit the cumulative rate at the largest loss (C114_beyond), as opposed to the tables (C114_table_beyond).

### C115 Compton scattering follows Klein and Nishina

Status: proved. Modules: `Props/KleinNishina`. Theorems: `C115_klein_nishina`, `C115_range`, `C115_positive`, `C115_thomson`, `C115_total`.

The cross section is modelled per component with real numbers; the total is the exact integral, not the quadrature.

### C116 The annihilation rate belongs to the sampled photon energies

Status: proved. Modules: `Props/KleinNishina`. Theorems: `C116_rate`, `C116_sampled`, `C116_density`, `C116_positive`.

Compared with the model of the sampler used for C43.

### C117 The total ionization loss does not depend on the cut

Status: partial. Modules: `Props/DensityEffect`, `Props/IonizationCross`. Theorems: `C117_density`, `C117_fraction`, `C117_plateau_heavy`, `C117_plateau_electron`, `C117_plateau_positron`, `C117_plateau_mismatch`, `C117_moller`, `C117_moller_cut_partial`, `C117_moller_cut_bound`, `C117_bhabha`, `C117_bhabha_cut_partial`, `C117_bhabha_cut_bound`, `C117_two_cuts`, `C117_constant`, `C117_rossi_plain`, `C117_rossi_defined`, `C117_rossi_undefined`, `C117_rossi_cut_partial`, `C117_rossi_negative`.

Shown where the closed formula is positive; where its bound at 0 acts only an inequality holds. For heavy particles the cuts stay below the largest loss, at which the radiative correction takes the logarithm of zero, and close to which the cross section is negative (C117_rossi_negative). With different cuts in parametrization and cross section the total changes (C117_two_cuts). At high energies electrons and positrons lose more than heavy particles of the same charge, by more than 0.66 in a bracket that is otherwise the same, because the squared ionization energy is divided by the electron mass and not by its square (C117_plateau_mismatch).

### C118 The photo effect has its threshold, edge and high-energy behaviour

Status: partial. Modules: `Props/DensityEffect`, `Props/PhotoEffectRate`. Theorems: `C118_ratio_range`, `C118_threshold`, `C118_ratio`, `C118_stobbe`, `C118_edge`, `C118_high_energy`, `C118_total`, `C118_lower_limit`, `C118_target_partial`, `C118_target_undefined`.

the rate of a single target is no number at and below its binding energy, although it is 0 in the list of all targets (proved)

### C119 Photoproduction: threshold, positivity, shadowing, rates

Status: partial. Modules: `Props/PhotoproductionRate`, `Props/PhotoproductionRhode`. Theorems: `C119_nucleon`, `C119_threshold`, `C119_positive`, `C119_heck_partial`, `C119_heck_undefined`, `C119_zeus`, `C119_bezrukov`, `C119_caldwell`, `C119_resonance`, `C119_switch`, `C119_heck_high`, `C119_heck_low`, `C119_shadowing`, `C119_atom`, `C119_c7`, `C119_kokoulin_17`, `C119_kokoulin_200`, `C119_total`, `C119_lower_limit`, `C119_rhode`, `C119_rhode_200`.

Rhode's parametrization with its table is positive for nucleons of up to 1900 MeV (C119_rhode) and falls by 0.3 microbarn at 200 GeV (C119_rhode_200). Heck's is proved for nucleons at least as heavy as the proton; for lighter ones (atomic number below the charge) it is the root of a negative number (C119_heck_undefined). Kokoulin's cross section is not continuous at 200 GeV (C119_kokoulin_200).

### C120 Photonuclear cross sections of real photons are positive and complete

Status: partial. Modules: `Props/Photonuclear`. Theorems: `C120_shadowing`, `C120_formula`, `C120_positive_partial`, `C120_tau`, `C120_limit`, `C120_cross_partial`, `C120_tau_cross`, `C120_tau_limit`, `C120_outside`, `C120_sigma`, `C120_hard`, `C120_hard_added`.

C120_formula proves that the transverse parts are exactly the integrals over the virtualities; positivity (C120_positive_partial, C120_cross_partial) holds for masses of up to 173 MeV. It fails for tau leptons (C120_tau, C120_tau_cross): the last bracket is multiplied with 2 mu^2/t; with mu^2/(2t) its negative part would be the one that completes the integral. Outside of the limits the cross section is not a number for all atoms but hydrogen, also at v = 1 (C120_outside). The tables of the hard component and of Rhode are parameters.

### C121 Weak interactions take the sum over the nucleons

Status: partial. Modules: `Props/Photonuclear`. Theorems: `C121_sign`, `C121_nucleons_partial`, `C121_medium`.

The code divides by the number of nucleons twice: the mean over the nucleons is multiplied with N_A / A as if it were the cross section of an atom, so per mass the cross section is 1 / A of that of the nucleons (C121_nucleons_partial) and a medium has the rate of as many nucleons as it has atoms (C121_medium). The interpolated tables are parameters.

### C122 Muon pairs are produced by every particle above the limit

Status: partial. Modules: `Props/MuonPairs`. Theorems: `C122_phi_pos`, `C122_integrand`, `C122_even`, `C122_positive_partial`, `C122_heavy`, `C122_heavy_zero`, `C122_molecule`, `C122_cross_partial`, `C122_below`.

Positive for electrons and muons. Two parts fail and are proved as such: the screening of the limit lacks the squared mass ratio, so for tau leptons the integrand vanishes close to the largest asymmetry (C122_heavy) and the cross section is zero for large losses (C122_heavy_zero); and the code takes the number of atoms in the molecule where the formula has the mass number (C122_molecule).

### C123 Photons produce muon pairs symmetrically within the limits

Status: proved. Modules: `Props/PhotonMuonPairs`. Theorems: `C123_formula`, `C123_symmetric`, `C123_limits`, `C123_outside`, `C123_monotone`, `C123_screened`, `C123_elements`.

The monotonicity assumes that the screening by the atom dominates that by the nucleus, which C123_elements shows for all elements.

### C124 The dilogarithm is accurate everywhere

Status: proved. Modules: `Props/Dilog`. Theorems: `C124_rational`, `C124_transform`, `C124_dilog`.

The bound is for exact arithmetic with the coefficients of the code.

### C125 Photons make electron pairs with the cross sections of Tsai and of Koch and Motz

Status: partial. Modules: `Props/PhotonPairRates`, `Props/PhotonPairs`. Theorems: `C125_unscreened_middle`, `C125_tsai_edge`, `C125_asymmetric`, `C125_high_energy`, `C125_lithium`, `C125_koch_motz_symmetric`, `C125_koch_motz_normalized`, `C125_koch_motz_negative`, `C125_butcher_messel`, `C125_koch_motz_high_energy`, `C125_light`, `C125_heavy_partial`, `C125_unscreened_partial`, `C125_screened`.

the elements of the model are proved for all inputs except where the code fails: C125_unscreened_middle and C125_lithium show the wrong functions of lithium and beryllium, C125_koch_motz_negative negative cross sections, C125_butcher_messel the wrong constant, C125_asymmetric the asymmetry of the shares; the LPM suppression is a parameter

### C126 Bremsstrahlung: sign, limits and radiation length

Status: partial. Modules: `Props/BremsComplete`, `Props/BremsElectron`, `Props/BremsForms`, `Props/BremsKelner`, `Props/BremsLimits`, `Props/BremsSigns`. Theorems: `C126_complete_positive`, `C126_radiation_length`, `C126_scaling`, `C126_electron_positive_partial`, `C126_electron_lead_negative`, `C126_electron_limit`, `C126_nuclear_size`, `C126_andreev_limits`, `C126_sandrock_limits`, `C126_kelner_positive`, `C126_radiative_jumps`, `C126_petrukhin_limits`, `C126_kelner_limits`, `C126_bounded`, `C126_petrukhin_light`, `C126_petrukhin_heavy_partial`.

The numerical integration is a parameter, double is the real numbers; the correction table of the parametrization for electrons is a parameter here and put in by C137_brems_positive. Positivity fails at the upper limit: for Petrukhin and Shestakov above a charge of 10 and an energy of about 1.15 TeV (muons in iron, C126_petrukhin_heavy_partial), and for the default parametrization of electrons in lead from 50 MeV on (C126_electron_lead_negative); C126_electron_positive_partial says where it holds. The radiative corrections of Sandrock et al. jump at their three joints (C126_radiative_jumps). The other parametrizations are bounded by 0 (Andreev et al., Sandrock et al.) or positive (C126_complete_positive, C126_kelner_positive for particles at least 100 times as heavy as the electron).

### C127 The suppression of bremsstrahlung and photon pair production in dense media has its physical limits

Status: partial. Modules: `Props/Lpm`, `Props/LpmAboveOne`, `Props/LpmFunctions`, `Props/LpmMore`. Theorems: `C127_range`, `C127_pair_range`, `C127_high_energy`, `C127_thin`, `C127_above_one`, `C127_xi_continuous`, `C127_soft`, `C127_pair_asymmetric`, `C127_density`, `C127_scale`.

Two parts of the statement are wrong for the code and their negations are proved. C127_above_one: in oxygen of any density up to 1e24 electrons per cubic centimetre there is an energy at which the factor for electrons losing one percent exceeds 1.004. C127_pair_asymmetric: the dielectric term of PhotoPairLPM uses the fraction x of one of the particles only, so the factor tends to 0 for x to 0 and to a positive number for x to 1. C127_scale takes the loss integral of the constructor over [0,1] instead of the kinematic limits at 1e14 MeV.

### C128 Electron pair production by charged particles is the published formula, integrated over all asymmetries of the pair

Status: partial. Modules: `Props/EpairCross`, `Props/EpairElectron`, `Props/EpairEnergy`, `Props/EpairFunctions`, `Props/EpairKelner`, `Props/EpairSandrock`, `Props/EpairSandrockLogs`. Theorems: `C128_range`, `C128_cross`, `C128_electron_allowed`, `C128_electron_zero`, `C128_conjugation`, `C128_energy`, `C128_electrons_high`, `C128_high_energy`, `C128_phiE`, `C128_phiMu`, `C128_short`, `C128_screening`, `C128_phi_sum`, `C128_zeta`, `C128_electrons`, `C128_kelner_value`, `C128_formula`, `C128_delta_e`, `C128_delta_mu`, `C128_ce2`, `C128_cm2`, `C128_branches`, `C128_two_logs`, `C128_sandrock_near`, `C128_sandrock_high`.

One part is wrong for the code and its negation is proved: C128_electron_zero shows that the integrated cross section of ForElectronPositron is zero for losses of 4 to 4.8 electron masses although C128_electron_allowed gives a positive integrand for every allowed asymmetry; FunctionToIntegral of that class takes the integration variable 1 - rho for rho. C128_branches shows that the second branch of the logarithm of electrons in SandrockSoedingreksoRhode differs from the first by the correction itself (a wrong sign); C128_delta_e shows that it is not reached for xi up to 5e6. The limit of SandrockSoedingreksoRhode is proved for xi between 1e-6 and 5e6. C128_cross takes the exact integral for Integral::Integrate.

### C129 The suppression of electron pairs by charged particles in dense media is a suppression with the right limits

Status: partial. Modules: `Props/EpairLpm`, `Props/EpairLpmLimits`, `Props/EpairTernovskii`. Theorems: `C129_single`, `C129_formula`, `C129_range`, `C129_monotone`, `C129_high_energy`, `C129_thin`, `C129_parametrizations`, `C129_scale`, `C129_molecules`, `C129_integrals_BD`, `C129_integrals_ACE`.

The last part is wrong for the code and its negation is proved in C129_molecules: the sum over components in the constructor of EpairLPM is not weighted with the number of atoms in the molecule, so a substance written with molecules k times as large has k times the energy scale, although mass density, radiation length and the density of every kind of atom are the same.

### C130 The photonuclear interaction of virtual photons stays in its kinematic range and is positive there

Status: partial. Modules: `Props/PhotoQ2Bracket`, `Props/PhotoQ2Cross`, `Props/PhotoQ2Range`, `Props/PhotoQ2Shadow`, `Props/PhotoQ2Structure`. Theorems: `C130_bracket`, `C130_positive`, `C130_scalar_negative`, `C130_light_negative`, `C130_heavy_negative`, `C130_real_photon`, `C130_integrand`, `C130_cross`, `C130_threshold`, `C130_range`, `C130_complete`, `C130_unreachable`, `C130_correction`, `C130_maximum`, `C130_tau`, `C130_outside`, `C130_shadow_dutta`, `C130_shadow_enhances`, `C130_wood_saxon`, `C130_shadow_butkevich`, `C130_shadow_drop`, `C130_neutron`, `C130_structure_partial`, `C130_bdh_negative`.

Parts of the statement are wrong for the code, their negations are proved: the range begins below what can be reached (C130_unreachable; the correction to the lower end for electrons and muons has the wrong sign, C130_correction), is not empty for tau leptons left with less energy than their mass (C130_tau), and at its lower end the integrand is negative, for spin 0 always (C130_scalar_negative), for electrons and muons at small losses (C130_light_negative) and for tau leptons near the threshold (C130_heavy_negative); the structure function of Block, Durand and Ha is negative at very large virtualities (C130_bdh_negative); the shadowing of Dutta et al. exceeds 1 for x between 0.0394 and 0.04 (C130_shadow_enhances); that of Butkevich and Mikheyev is not continuous (C130_shadow_drop). Positivity of the structure functions is restricted to virtualities up to 4e5 GeV^2 (Block, Durand, Ha) and 1e94 GeV^2 (Abt et al.) in C130_structure_partial.

### C131 A stored interpolation table is only used for what it was made of

Status: partial. Modules: `Props/JsonEdges`, `Props/TableClash`, `Props/TableNames`, `Props/TableStore`. Theorems: `C131_weak_names`, `C131_photon_secondaries`, `C131_photon_cross`, `C131_weak_secondaries`, `C131_hard_name`, `C131_hard_cross`, `C131_time`, `C131_classes`, `C131_cross_partial`, `C131_reproducible`, `C131_code`, `C131_store`, `C131_tables_partial`, `C131_utility`, `C131_cross_lists`, `C131_mass`.

Proved for the tables of cross sections and utilities when hashes do not collide (C131_cross_partial, C131_tables_partial, C131_utility, C131_cross_lists, C131_mass). Wrong for the code, with negations proved for every hash function: the tables for the secondaries of photons have the same name for pairs of electrons after Tsai, after Koch and Motz, and for pairs of muons, so that the second calculator reads the table of the first (C131_photon_secondaries); the tables of the hard component enter no name (C131_hard_name, C131_hard_cross); the mass is missing in the names for the exact time (C131_time; harmless if it is the mass of the particle of the cross sections, C131_mass). The table for the secondaries of weak interactions has a name that depends on the address of a string literal (C131_weak_secondaries). Cross sections without tables (parametrizations of the class ParametrizationDirect) enter the lists of hashes as arbitrary values; the LPM effect is taken for the particle and the medium of the cross section.

### C132 A configuration builds exactly the sectors that it describes

Status: partial. Modules: `Props/ConfigCross`, `Props/ConfigDefaults`, `Props/ConfigReach`, `Props/ConfigSector`, `Props/JsonEdges`. Theorems: `C132_cross_list`, `C132_unknown_keys`, `C132_missing_partial`, `C132_no_sectors`, `C132_utility`, `C132_count`, `C132_empty_geometries`, `C132_defaults`, `C132_lpm_default`, `C132_reachable`, `C132_unknown_name`, `C132_sector`, `C132_propagator`, `C132_empty`, `C132_unknown_medium`.

Proved as equivalences for the whole configuration (C132_propagator, C132_sector), for the list of cross sections (C132_cross_list, C132_reachable, C132_unknown_name) and the defaults (C132_defaults). Missing keys are refused (C132_missing_partial, C132_no_sectors); wrong for the code is only the demand for at least one geometry: an empty list of geometries is accepted and the sector disappears (C132_empty_geometries). Worth knowing: keys that are not among the twelve, for example bremsstrahlung instead of brems, are ignored without a message (C132_unknown_keys); a cross section by its name has the LPM effect, the same cross section by default does not (C132_lpm_default). Asserts are taken as on; exceptions while tables are built are left out.

### C133 The Coulomb corrections are those of Bethe and Maximon

Status: proved. Modules: `Props/BetheMaximon`. Theorems: `C133_coulomb`, `C133_tsai`.

The sums of inverse powers that occur are enclosed in the file.

### C134 Tables of arrays interpolate by the polynomial through the nodes next to the point

Status: partial. Modules: `Props/InterpLinear`, `Props/InterpRational`, `Props/InterpTable`, `Props/InterpTwo`. Theorems: `C134_linear`, `C134_bilinear`, `C134_increasing`, `C134_rational_nodes`, `C134_rational_partial`, `C134_reciprocals`, `C134_zero_node`, `C134_array_partial`, `C134_polynomials`, `C134_nodes`, `C134_continuous`, `C134_jump`, `C134_order_one`, `C134_single`, `C134_rejected`, `C134_two_variables`, `C134_two_polynomials`.

`C134_rational_partial`: with rational functions, points at which a divisor of the scheme vanishes are not covered; `C134_zero_node`: with a table value zero in the middle of three nodes the result is zero everywhere, so not even lines are reproduced. `C134_order_one`: with order 1, points for which the last node is the nearest raise `std::out_of_range` (unless they are this node). `C134_jump`: with odd orders the interpolation is not continuous. `C134_rejected`: vectors of different lengths raise an exception of `std::vector::at` instead of an own one, and one abscissa without ordinate is accepted.

### C135 Tables of functions interpolate the function, or its logarithm, on nodes in the middles of equal cells

Status: proved. Modules: `Props/InterpGrid`, `Props/InterpGridLog`, `Props/InterpGridTwo`. Theorems: `C135_table`, `C135_polynomials`, `C135_undefined`, `C135_logarithms`, `C135_two_logarithms`, `C135_two_powers`, `C135_two_not_negative`, `C135_two_variables`, `C135_two_polynomials`.

Tables of functions of one and two variables without rational functions; tables of logarithms of functions of two variables are proved for functions which are positive at the nodes. The points at which the conversions to `int` overflow are excluded; `C135_undefined` shows that the behaviour is undefined there and in tables of an empty interval.

### C136 FindLimit inverts a monotone table and stays in it

Status: partial. Modules: `Props/InterpInverse`. Theorems: `C136_arrays`, `C136_nodes`, `C136_linear`, `C136_range`, `C136_function_nodes`, `C136_rational_ignored`.

`C136_rational_ignored`: the flag for rational functions in the inverse has no effect until `SetFast(false)` is called; the other theorems are about polynomials.

### C137 The tabulated low energy corrections are valid for every element and every energy

Status: proved. Modules: `Props/LowTables`. Theorems: `C137_pair_table`, `C137_pair_total`, `C137_brems_factor`, `C137_brems_positive`.

Real arithmetic. Charges above 100 are continued linearly; the factor for bremsstrahlung is shown to be positive there up to 118.

### C138 The normal quantile with the coefficients of the code is accurate for every probability

Status: proved. Modules: `Props/NormalQuantile`. Theorems: `C138_probability`, `C138_quantile`, `C138_law`, `C138_exact`, `C138_gaussian`.

Real arithmetic with the exact complementary error function; rounding of the coefficients in binary is not treated.

### C139 Interpolation tables survive saving, loading and copying

Status: partial. Modules: `Props/InterpStore`. Theorems: `C139_function`, `C139_arrays`, `C139_two`, `C139_truncated`, `C139_truncated_one`, `C139_text`, `C139_resaved`, `C139_arrays_two`, `C139_copy`, `C139_copy_two`, `C139_assign`, `C139_not_equal`, `C139_equal`.

Proved for the tables of functions of one and two variables and of vectors of one variable. The code violates the other parts: tables of vectors of two variables are saved as tables of one variable and every interpolation after loading throws (C139_arrays_two), so do tables of two variables that were loaded and are saved again (C139_resaved) and those assigned to an object without a function of two variables (C139_assign); saving a copy throws std::out_of_range (C139_copy, C139_copy_two); a file of two variables without its last number is loaded without complaint (C139_truncated), and a file with 1 to 11 values makes InitInterpolant use variables without a value (C139_truncated_one); an object that interpolated once is not equal to a new one (C139_not_equal). The estimates of errors are not modelled.

### C140 Angles of electron pairs after Tsai

Status: partial. Modules: `Props/TsaiAngles`. Theorems: `C140_positive_partial`, `C140_negative`, `C140_polar`, `C140_directions`, `C140_positron_share`.

Proved for elements heavier than helium: the drawn angle lies between 0 and pi and cuts off the part of the density given by the random number, for any earlier use of the integration object and any energy (C140_polar, C140_directions; the search for the upper limit is taken to be exact). The density is positive if the energies of the two particles multiply to at least two electron masses times the photon energy (C140_positive_partial). Disagreements: near the threshold, for every such element up to a photon energy of 3.8 electron masses (1.94 MeV), the density of a symmetric pair is negative at the angle where the transverse momentum is the electron mass (C140_negative), so that it is not a probability density; and the angle of the positron is drawn with the share of the electron, whose density is not proportional to that of the positron's own share (C140_directions, C140_positron_share). Missing: hydrogen and helium, and the energies between the two regions.

### C141 Seeds and the state of the random generator

Status: partial. Modules: `Props/KochMotz`, `Props/KochMotzLoss`, `Props/RandomEngine`. Theorems: `C141_disturbed`, `C141_custom_undisturbed`, `C141_known_numbers`, `C141_unit_interval`, `C141_seed_determines`, `C141_seeds_differ`, `C141_restore`, `C141_custom`.

everything about the generator itself is proved. Disagreement: BremsKochMotz::CalculateDirections creates a RandomGenerator of its own and seeds it, but the engine is a static member, so that the generator of the whole program is reseeded with floor((2^31 - 1) rnd[0]). C141_disturbed: whatever the seeds of two programs, after one such bremsstrahlung with the same loss and random numbers all their numbers are the same; the example runs it with the seeds 1 and 2. A function of the user is not disturbed (C141_custom_undisturbed). The engine of the standard library is modelled after the C++ standard, with exact division.

### C142 Rejection of bremsstrahlung angles after Koch and Motz

Status: partial. Modules: `Props/KochMotz`, `Props/KochMotzLoss`. Theorems: `C142_positive`, `C142_acceptance`, `C142_first_accepted`, `C142_angle`, `C142_envelope`, `C142_loss`, `C142_seeds`.

positivity, the loop and the range of the angle are proved. Disagreement: the normalisation 1/max(g(0), g(1), g((pi E0)^2)) is not a bound. C142_envelope: for an electron of 17 rest energies losing 14/17 of its energy in oxygen the acceptance exceeds 1 at an angle that occurs, so that the angles do not follow the distribution exactly. Missing: how large the excess can be for all parameters.

### C143 Propagation ends

Status: partial. Modules: `Props/Termination`. Theorems: `C143_shapes`, `C143_passes_partial`, `C143_ends_partial`.

proved for regular runs (no step uses the emergency exit after 200 trials, no overshoot of the maximal distance, see C13) and interactions that take at least a fixed energy, as they do with the cuts: passes that go on are borders, each at least the geometry precision away from the last one (C143_shapes: all shapes have this property), or interactions.

### C144 Secondaries start at the loss with no distance of their own

Status: partial. Modules: `Props/NewTracks`. Theorems: `C144_interactions_partial`, `C144_pairs`, `C144_primary_differs`, `C144_decays`.

True for all decay channels and for all interactions except the production of pairs by charged particles: there the primary keeps the distance that it had at the loss (C144_pairs), so that it is treated otherwise than after bremsstrahlung or a photonuclear interaction (C144_primary_differs). A second call of Propagate with the same maximal distance lets it travel less.

### C145 Cross sections with tables answer like those without

Status: partial. Modules: `Props/CrossTables`. Theorems: `C145_loss_table`, `C145_rate_table`, `C145_integration`, `C145_agreement_partial`, `C145_built`, `C145_no_stochastic_losses`, `C145_positive_variance`, `C145_free_path`.

True for all energies of the tables that are not within a part of a step above the threshold of a component, wherever the cross section with tables is built (C145_agreement_partial, C145_loss_table, C145_rate_table); without fluctuations it is built exactly if all components have stochastic losses at some energy of the tables or none are asked for (C145_built). The claim fails otherwise: with a finite ecut above the energies of the tables and vcut 1 the constructor with tables throws while the one without works (C145_no_stochastic_losses), and so it does with cont_rand for squared losses that are positive at all energies (C145_positive_variance). Squared losses that are positive at the lowest energy are left out of the agreement.

### C146 A propagator made of cross sections gives a consistent track

Status: partial. Modules: `Props/Assembled`, `Props/AssembledLaws`. Theorems: `C146_state`, `C146_good_utility`, `C146_homogeneous`, `C146_track_partial`, `C146_regular`, `C146_ends`, `C146_contained`, `C146_constructed`, `C146_parts`, `C146_grammage_partial`, `C146_energy_partial`, `C146_interaction_partial`, `C146_decay_partial`, `C146_randomised_partial`.

Calculators without tables and exact integrals. The ranges of all calculators are proved (C146_good_utility) and do not depend on the calls before (C146_state); the order of the track follows for regular runs (C146_track_partial), and without this restriction for a particle in one sector without scattering that cannot reach the border (C146_regular, C146_contained), whose propagation also ends (C146_ends). The laws of grammage, energy after a grammage, time, interaction, decay and randomised energy are stated in terms of the cross sections for energies well apart (C146_grammage_partial to C146_randomised_partial). Missing: runs that overshoot the maximal distance or use the emergency exit, for which the order fails (C13_distance_decreases). A run in which a calculator throws is not a run of the code to its end; the model continues with the energy before.

### C147 A cascade conserves energy

Status: partial. Modules: `Props/Cascade`. Theorems: `C147_calculators`, `C147_no_calculator`, `C147_first`, `C147_loss`, `C147_absorbed`, `C147_track`, `C147_entry`, `C147_decay_partial`, `C147_cascade`.

Missing: decays whose products contain NaN, and the case that a calculator returns NaN or throws (the theorems are about the secondaries that are returned). Pions and kaons decay without products, see C87_mesons.

### C148 Interactions which convert the particle take all of its energy

Status: partial. Modules: `Props/CrossBuilder`. Theorems: `C148_refused`, `C148_compiled`, `C148_all_energy_partial`, `C148_const`, `C148_const_others`, `C148_cuts`, `C148_photoproduction`, `C148_rates`, `C148_target`, `C148_foreign_component`, `C148_unknown_hash`, `C148_lower_limit`, `C148_sampled`, `C148_track`, `C148_gone`, `C148_factories`.

False for a parametrization passed as a const object with a name: std::remove_cv_t leaves the const of const T&, so the traits of the type are missed. Then cuts are accepted, and pairs of photons and the weak interaction leave a part of the energy (C148_const); for ionization the template is not compiled (C148_compiled). Photoproduction accepts cuts and ignores them (C148_photoproduction). Below the binding energy the rate of the photo effect asked for by hash is not a number (C148_target), and a component which is not in the medium has a rate (C148_foreign_component).

### C149 The built-in particles are consistent

Status: partial. Modules: `Props/Particles`. Theorems: `C149_map`, `C149_again`, `C149_taken`, `C149_charge`, `C149_antiparticle`, `C149_weak_partner`, `C149_limits`, `C149_lifetime_partial`, `C149_k0`, `C149_k0_decay`, `C149_anti_decay`, `C149_numbers`, `C149_stau`, `C149_builder`, `C149_copy`, `C149_default`.

Proved for all built-in particles except: the neutral kaon is documented as stable but has the lifetime -1 s, which is finite, so a decay calculator is made for it (C149_k0); with it the kaon never decays before the lower limit and is reported as decayed there (C149_k0_decay). The types of the staus have no definition until one is constructed, and the staus have the hash numbers of the stable massive particles (C149_stau). Two different particles that a user builds without a type cannot both be constructed, and the default charge is -1 (C149_default).

### C150 Cascades conserve charge and lepton numbers

Status: proved. Modules: `Props/Charges`. Theorems: `C150_types`, `C150_leptons`, `C150_charge`, `C150_boson`, `C150_survivor`, `C150_last`, `C150_track`, `C150_shower_leptons`, `C150_shower_charge`.

Hadrons have no charge in the code; their charge is the one that is missing. Interactions of photons are assumed to be given photons, annihilation positrons, and weak interactions leptons with the weak partner of their definition; the conversion takes all energy (as sampled) and the minimal energy is not negative. Decays whose products contain NaN are not covered (C87).

### C151 Moving the whole setup moves the track

Status: proved. Modules: `Props/Motion`. Theorems: `C151_track`, `C151_faults`, `C151_shifts`, `C151_turns`, `C151_sphere`, `C151_box`, `C151_cylinder`, `C151_exponential`, `C151_depth`, `C151_homogeneous`, `C151_energy_lookup`, `C151_distance_lookup`, `C151_entry`, `C151_exit`, `C151_closest`, `C151_hit`.

In exact arithmetic: rounding of floating point numbers does depend on the position. Turns of the whole setup need sectors without scattering, since the frame in which a deflection is applied depends on the direction (C22); boxes cannot be turned at all, cylinders only about their direction.

### C152 A larger maximal distance continues the same track

Status: proved. Modules: `Props/Continuation`. Theorems: `C152_same_track`, `C152_finished`.

In exact arithmetic and for sectors without scattering whose density converts grammage to distance independently of the border (homogeneous and exponential). With multiple scattering the proposed step to the maximal distance is scattered with its own numbers, so the two propagations differ.

### C153 A propagation is reproducible from its random numbers

Status: proved. Modules: `Props/Replay`. Theorems: `C153_forward`, `C153_replay`, `C153_reproducible`.

The physics (stochastic loss, scattering, decay) is a function of the numbers it is given. The global generator of the code is modelled in C48; interpolation tables built on the first use do not draw numbers.

### C154 What matters in a list of sectors

Status: proved. Modules: `Props/Worlds`. Theorems: `C154_order`, `C154_behind`, `C154_renumber`, `C154_condition`, `C154_ties`.

C154_order, C154_ties, C154_renumber, C154_behind (as long as the track stays in the region and the directions in the set for which the geometry reports it as inside, the unit vectors for the built-in shapes) and C154_condition.

### C155 Propagation with interpolation tables

Status: partial. Modules: `Props/AssembledTables`. Theorems: `C155_good_utility_partial`, `C155_exact_tables_partial`, `C155_track_partial`, `C155_contained_partial`, `C155_same`, `C155_same_utility`, `C155_tables`, `C155_below`, `C155_slack`.

C155_good_utility_partial, C155_track_partial and C155_contained_partial hold for tables of lengths and times that do not decrease if close lengths are not longer than in the table, which C155_exact_tables_partial shows for energy losses that do not decrease with the energy. C155_below proves that the rule fails for an energy loss that decreases with the energy, even with exact tables: lengths between energies that differ by less than a millionth are computed from the energy loss at the upper energy, so a step shorter than the one to the wanted energy can end below it. C155_slack bounds the difference. C155_same is the agreement with the calculators without tables.

### C156 Directions of decay products favour no direction

Status: proved. Modules: `Props/Isotropy`. Theorems: `C156_isotropic`, `C156_cosine`, `C156_every`, `C156_energies`, `C156_spectrum`, `C156_spectrum_second`.

### C157 The next event follows the competition of decay and interactions

Status: partial. Modules: `Props/Competition`, `Props/PassLaw`. Theorems: `C157_next_energy_partial`, `C157_decay_partial`, `C157_interaction_partial`, `C157_stable_partial`, `C157_two_numbers`, `C157_decay_entry_partial`.

The laws assume exact integration and an exact search of energies, and continuous positive losses and rates; C157_two_numbers holds without. The density enters the decay law as the density at the start of the step, as in the code. C157_decay_entry_partial is the law for the entries of the track. For densities that are not constant the decay law fails, see C162_inhomogeneous.

### C158 No side of the flight direction is preferred

Status: partial. Modules: `Props/Azimuth`, `Props/ScatterSymmetry`. Theorems: `C158_deflection`, `C158_mean`, `C158_stochastic`, `C158_stochastic_brems`, `C158_propagation`, `C158_compton`, `C158_ionization`, `C158_annihilation`, `C158_bremsstrahlung`, `C158_photon_pairs`, `C158_forward`, `C158_decay`, `C158_multiple_partial`.

Multiple scattering is proved for Highland with the exact quantile function of the normal distribution (C158_multiple_partial; the one of the code differs by 1e-11, C138_quantile). Moliere scattering, which samples the two planes independently from a distribution that is not normal, is not covered. All other parts are proved.

### C159 Type, target and loss of an interaction follow the differential cross sections

Status: partial. Modules: `Props/LossLaw`. Theorems: `C159_law`, `C159_components`, `C159_medium`, `C159_all_energy`, `C159_direct`, `C159_multiplied`, `C159_calculator_partial`, `C159_table_partial`, `C159_propagation`.

The law is proved for all calculators which are the inverse of the integrated differential cross section (C159_law, C159_components, C159_medium, C159_all_energy, C159_direct, C159_multiplied, C159_propagation). That the calculators of the code are, is proved for exact integrations and searches (C159_calculator_partial, C159_table_partial); the numerical errors are not bounded. Components with the same hash are excluded, where the rate is wrong (C31_repeated_component).

### C160 Energy, type, target and loss of the next interaction follow the cross sections together

Status: partial. Modules: `Props/FirstInteraction`. Theorems: `C160_next_interaction_partial`, `C160_step_partial`.

Proved with exact integrations and searches, for calculators which follow the differential cross sections, and for rates that depend measurably on the energy (C160_next_interaction_partial, C160_step_partial). The numerical errors are not bounded.

### C161 The mean energy loss does not depend on the energy cut

Status: partial. Modules: `Props/MeanLoss`. Theorems: `C161_mean`, `C161_total`, `C161_components_partial`, `C161_fluctuations_partial`, `C161_medium_partial`, `C161_direct`, `C161_calculators_partial`, `C161_cut`, `C161_propagation`.

The mean over the random number and the sum over processes are proved for every list (C161_mean, C161_total, C161_cut, C161_direct, C161_propagation). That a cross section with a cut has the mean of its differential cross section is proved for calculators with exact integrals and searches (C161_components_partial, C161_medium_partial, C161_fluctuations_partial, and C161_calculators_partial from the modelled calculators and the cut itself).

### C162 Free paths and decay lengths

Status: partial. Modules: `Props/FreePath`, `Props/PassLaw`. Theorems: `C162_time_partial`, `C162_matter_partial`, `C162_passes_partial`, `C162_free_path_partial`, `C162_beyond_partial`, `C162_ends_partial`, `C162_inhomogeneous`.

Exact integration and search of energies. The exact probability is that of C162_ends_partial (for the track of a propagation that starts inside a large sector, without multiple scattering) and C162_free_path_partial; with energy dependent rates and decay lengths C162_passes_partial bounds it by those at the ends. Energies next to each other are excluded (WellAbove): the integrals over them are 0 in the code. For densities that are not constant the claim is false: the code takes the density at the start of the step for decays, so in a falling density particles live any number of lifetimes too long (C162_inhomogeneous).

### C163 Randomised energies follow the restricted normal distribution

Status: partial. Modules: `Props/RandomLaw`. Theorems: `C163_sample`, `C163_energy_partial`, `C163_mean_partial`, `C163_shift_partial`, `C163_spread_partial`, `C163_step_partial`, `C163_mean_changed`.

The distribution is proved for the numerical methods being exact and for a random number that the scattering of the step has not used (C67 is the other case). The code violates the second part: C163_mean_changed is an example with a shifted mean, C163_shift_partial says exactly when the mean energy loss is larger than without randomization (initial energy closer than the minimal energy), and C163_spread_partial that the fluctuations are always smaller than the intended variance. The restriction to an interval that is not symmetric is the reason.

### C164 Dividing a piece of matter does not change the law of events

Status: partial. Modules: `Props/DividedSteps`. Theorems: `C164_two_media_partial`, `C164_divided_partial`, `C164_border_partial`, `C164_passage_partial`, `C164_energy_partial`, `C164_scattering_divided`.

Proved for the numerical methods being exact, and for the step to a border without scattering and continuous randomization. The code violates it for the multiple scattering: C164_scattering_divided shows that ten layers of a medium scatter less than the whole, because the logarithm of the Highland formula is taken of every layer alone; the continuous randomization is restricted in every step (C163).

### C165 A smaller minimal energy continues the same track

Status: partial. Modules: `Props/MinimalEnergy`. Theorems: `C165_same_track`, `C165_goes_on`, `C165_below_limits`, `C165_randomised`.

Proved without continuous randomization. With it the code violates the property: C165_randomised shows that the same random number gives another energy for every minimal energy above the lower limit, since the minimal energy is a limit of the normal distribution. Not covered: steps in which the minimal energy itself is the next event, but a border comes before.

### C166 A stored spline is read back

Status: partial. Modules: `Props/SplineStore`. Theorems: `C166_read_again_partial`, `C166_six_digits`, `C166_once`, `C166_knots`, `C166_through_nodes`, `C166_precision`, `C166_polynoms`, `C166_binary`, `C166_no_file`.

Proved for the text mode and splines through nodes. The code violates the property otherwise: C166_precision (numbers are printed with six digits, a line of value 1234567 has another value when read), C166_polynoms (splines constructed from polynomials write one interval too many, reading them uses an uninitialised degree), C166_binary (the binary mode writes the bytes of a std::string object and reads bytes over an object with vectors), C166_no_file (a missing file leaves the number of intervals uninitialised without a report). Not covered: the exact decimal rounding of halves.


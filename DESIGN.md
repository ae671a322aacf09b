# Formal model of radvel in Lean 4 — design

Source of truth: `/repo` (California-Planet-Search/radvel at the pinned commit), read as text.
The properties are in `properties.jsonl` (C01, C02, ...); their status is in `MANIFEST.json`.

## Layout

* `lean/Verif/Py/*`      – Python primitives: ordered dictionaries, exceptions as values, float special values.
* `lean/Verif/Model/*`   – the model, one file per Python source file (or part of it). Every definition cites
  the file and lines it models; simplifications are stated in the same comment.
* `lean/Verif/Spec/*`    – small specifications that do not mention the model's helpers.
* `lean/Verif/Lemmas/*`  – helper lemmas.
* `lean/Verif/Props/*`   – the property theorems, each followed by an `example` showing that a concrete,
  non-trivial case meets its hypotheses.
* `seeded/LOG.jsonl`     – record of deliberate bugs put into a scratch copy of the model. `failed` lists the declarations that no longer compile in the first files that fail; files that import them are not
  built, and a helper lemma may fail because its proof follows the text of the definition. `build` is `succeeded` if nothing noticed the edit (`note` says why, `tightened` what was changed), and `inconclusive` if the build was stopped before any declaration failed.

## Trusted base

* Lean 4.33.0's kernel and Mathlib's definitions (reals, sin/cos/arctan, integrals, matrices).
* Axioms: only `propext`, `Classical.choice`, `Quot.sound`. No axiom is declared in this project, and there is
  no `sorry`, `admit`, `native_decide`, `bv_decide`, `implemented_by` or `unsafe`.
* The reading of the Python/C source: nothing here is extracted from the code; each definition cites its lines.
* Numbers: IEEE doubles are modelled as exact reals (or as elements of an arbitrary type when only bookkeeping
  matters). Rounding, overflow and denormals are not modelled, except rounding and underflow in `rv_drive`, the Kepler solvers, the sum over planets and trend, the log-likelihood and log-posterior (C169, C173, C174, C182), and rounding in phases, time bins and their averages, `fastbin`, `geterr` and Julian dates (C185-C190, C192, C193). Where infinities and NaN decide the behaviour
  (log-probabilities, AICc) the type `Fl` (finite | +inf | -inf | nan) is used.
* Axioms were checked with `#print axioms` over every theorem of the manifest.
* External code is a parameter of the model: `scipy.optimize.minimize` (an arbitrary trace of evaluations and a
  result), emcee (an arbitrary move function and arbitrary statistics), `norm.ppf`, KDEs, Cholesky (replaced by the exact inverse and
  determinant), the nested samplers, h5py/pandas/ConfigParser storage (maps), matplotlib and LaTeX (not modelled).

## Conventions

* A function that can raise returns `Except PyErr α`; a method that mutates `self` returns the new state, also on
  the error path when the partial write is observable.
* Keys such as `per1`, `gamma_j` are an inductive type `Key`; `Key.render` gives the actual string and is proved
  injective, and the `startswith` tests of the code are proved to agree with the constructors.
* Where the code violates a property the negation is proved with a concrete witness (`..._violated`), the provable
  part is kept as `..._partial`, and the finding is listed below.

## Plan per property

### Parameters and vector (`radvel/model.py`, `likelihood.py` 25-180)
* **C01, C02, C08** `Vector` is a pair (index dictionary, rows). Model `init_index_dict`, `dict_to_vector`, `vector_to_dict`,
  `Likelihood.__init__`. Invariant: index map injective on the keys, range = rows. Proved by induction over the
  construction history. C08 is false for predeclared decorrelation keys (IndexError): witness + partial.
* **C03** `vector_names` compaction modelled literally; under the invariant names[i] is the inverse of the index
  map. False with a user-defined key: witness.
* **C04, C05, C06** `Likelihood` state = params, vector, cached list. Round trip by induction on the list of free rows.
  C05: exception always, but state is modified: witness. C06: stale cache: witness; partial when list_vary_params is fresh.
* **C07** `__reduce__` + `OrderedDict.update`: assoc-list lemma.
* **C09** labels as strings over the last character of the key; proved for at most 9 planets, witness for 10.

### Orbits and bases (`orbit.py`, `kepler.py`, `kepler.c`, `basis.py`, `model.py` 283-344)
* **C10, C11, C12** per-planet conversions as functions on reals; `arctan2` modelled as `Complex.arg`. Round trips by the polar
  identities; lifted to dictionaries with any number of planets and to vectors.
* **C13, C14** ordered dictionaries with the actual insertion order; the curve is computed from the vector as in the code.
  Witnesses: target `logper tp e w logk` (stray `tc`), leftover keys. Basis name aliasing: witness.
* **C15, C16, C17** exact reals; C16/C17 via half-angle identities and an exact solution of Kepler's equation.
* **C18, C20** the Danby iteration as a state machine with fuel; postcondition and element independence by induction.
* **C19, C24** `E - e sin E` is strongly monotone; IVT for existence; mean value theorem for the velocity bound.
* **C21, C22, C23** trigonometric identities, periodicity from the floor function, surjectivity of the true anomaly.
* **C25** list sums and permutations.

### Likelihoods (`likelihood.py`)
* **C26** against `gaussianPDFReal`. **C27** Gaussian integral after completing the square. **C28, C29, C30** lists; C29/C30 are false: witnesses.
* **C31** strings as character lists with the code's substring test; witness for overlapping names.
* **C32** arithmetic on `Fl`. `Posterior.aic` always raises: witness. **C33** permutations (sums; matrices via reindexing); celerite: witness.
* **C34** state machine of evaluations, independence of the history by induction; QuasiPer zero branch: witness.

### Gaussian processes (`gp.py`)
* **C35, C37, C38, C39, C40** matrices over `Fin n`. **C36** positive semidefiniteness via power series and Schur products.

### Priors and posterior (`prior.py`, `posterior.py`)
* **C41, C42** interval integrals. `norm.ppf` is external, so the Gaussian transform is a parameter.
* **C43–C46** decision logic over the vector; C44 false in log-k bases, C46 false across phase zero: witnesses.
* **C47** `Fl` arithmetic. **C48, C49** prior objects as an inductive type with the attributes the code inspects.

### Utilities (`utils.py`)
* **C50, C51** loop with fuel over sorted lists; **C52–C58** real arithmetic; **C56** integer microseconds;
  **C59** file-system-free state machine of the current directory; **C60** model state with params and vector.

### MCMC (`mcmc.py`)
* **C61, C62, C66** control state machine fed with arbitrary statistics; **C63** index arithmetic; **C64, C65** sums over `Fin n`;
  **C67** key/value store; **C68** real arithmetic.

### Fitting, nested sampling, driver, report
* **C69** optimiser trace; **C70–C74** recursion of `model_comp` over abstract posteriors; **C75** label state machine.
* **C76–C78** dictionaries and a path map; **C79, C80** ConfigParser as map of maps with a crash point;
  **C81, C82** status contents; **C83** character lists.

* **C102–C105** command histories as lists of steps on the status file and the files it names; a ghost log records where every file comes from; invariants by induction over the history.
* **C106–C108** the four nested-sampling packages as arbitrary functions; calls, keyword dictionaries and files recorded.
* **C109** walkers' starting positions as lists. **C110–C116** the report's tables as lists of rows that name the parameter whose numbers they show.
* **C117–C121** a setup file as a record; the loop over instruments keeps the index invariant, by induction.
* **C122–C127** samples as tables of columns over `Fin n`; a row is compared with the parameters it stands for; the loop over planets keeps earlier columns, by induction; reordering rows commutes with every step.
* **C128–C133** `sampling_postprocessing` composed of the models above (conversion of samples, fit, `sigfig`); quantiles are specified by position in the sorted column; the state after the fit differs from that before only in free rows and analytic offsets.
* **C134–C139** `fastbin`; `mtelplot` as a loop over sorted instruments with the colour count and the caller's dictionary as state, in closed form; figures as lists of panels; the GP figure with its aliased array as state.
* **C140–C143** `MultipanelPlot`: the arrays of `__init__` and the points, curves, bins and limits of its panels, in closed form for every reachable posterior; observations and orbits as in the model of the likelihoods.
* **C144–C149** the command line: options as data, a parser in argparse's manner proved sound and complete for lists of option uses; attributes read by the commands as a list from the source; file system as in the model of the working directory.
* **C150, C151** labels and the table of priors: `tex_labels` in full with Python's `in` and `replace` on lists of characters; `__str__` of every prior; what a text shows is a list of pieces in order.
* **C152, C153** figures as provenance (type and number of the samples) in a file system of places; the call of the sampler as the dictionary of keywords made from the parsed command line.
* **C154** the capstone: `initialize` followed by any calls and `logprobArray`, against a specification that mentions the file only (`Verif/Spec/FileModel.lean`; with decorrelation `Verif/Spec/FileDecorr.lean`).
* **C155** the same for files with Gaussian processes, whose likelihoods also change the shared dictionary and their kernels when they are evaluated (`Verif/Spec/GPPost.lean`).
* **C156** the table that `print(like)` and `print(post)` show and its effect on the dictionary (`Verif/Model/Print.lean`); later evaluations by a simulation that ignores the dictionary's values.
* **C157** rows of `tab_crit` from the text of the status file (`Verif/Model/Crit.lean`), with an invariant over all commands that the entries of `mcmc` stay as they are.
* **C158** `_progress_bar`, the status line, and the count of steps as an invariant of the rounds (`Verif/Model/Progress.lean`).
* **C159** `load` after `writeto` (`Verif/Model/Load.lean`); the two posteriors are related by "equal but for the dictionary", which every call preserves.
* **C160** the table of autocorrelation times and `AutoPlot` (`Verif/Model/AutoPlot.lean`); rows by induction over rounds and over histories of saved, interrupted and continued runs.
* **C161** `CornerPlot`, labels of `TrendPlot`, `DerivedPlot` with letters, `texlabel` (`Verif/Model/Corner.lean`); the columns shown are a permutation of `name_vary_params`, by the invariant of reachable states.
* **C162** `NumericalPrior.__init__` and `transform` for one parameter, with `np.histogram`, `np.cumsum` and `np.interp` (`Verif/Model/NumPrior.lean`), over exact reals; by induction, cumulative counts are counts below edges, and interpolation between rising points is monotone and stays between neighbours.
* **C163** the numbers of `_row` (`Verif/Model/RowText.lean`) on top of `round_sig`, `sigfig` and `geterr`; case split on the decimals shown; moving angles is idempotent.
* **C164** the attribute `derived` of the posterior file through all commands (`Verif/Model/Pipeline.lean`); an invariant about the last derivation since the last fit, by induction over command sequences.
* **C165** the text lines of the phase panels (`Verif/Model/Annotate.lean`); idempotence of `sigfig`, composed with the reported numbers (C129) and the labels (C09, C161).
* **C166** (and C14) basis conversion on a store of objects (`Verif/Model/BasisHeap.lean`); a simulation relation to the conversion of values (`Verif/Model/Basis.lean`), carried through both loops together with what is shared.
* **C167** convergence of the two loops: the residual after a correction is written with the three trial steps and a Taylor remainder (`Verif/Lemmas/KeplerEnd.lean`). Up to eccentricity 3/5 it is at most 21 times the fourth power of the residual before, near the solution, and the first correction from either guess leads there, by cases of the quadrant. Above 3/5 (NumPy) the residual is measured in units of the slope to the power 3/2 (`Lemmas/KeplerStep.lean`); on the right of the solution the claim for one correction is scaled to a compact set of three variables and checked there by interval arithmetic: `boxOk` is proved sound in `Lemmas/KeplerBoxSound.lean`, and the kernel evaluates it on the 733 boxes of `Lemmas/KeplerCover.lean`. For the C solver, which starts at the mean anomaly, up to eccentricity 0.99: the first two corrections as functions of two numbers (`startOk`, 1094 boxes of `Lemmas/KeplerStartCover.lean`), which lead close to the solution or to the right of it; there, far from it, a correction divides the residual by 3 (`farOk`, 688 boxes of `Lemmas/KeplerFarCover.lean`); soundness in `Lemmas/KeplerFarSound.lean` and `Lemmas/KeplerStartSound.lean`. Near eccentricity 1, a counterexample by the intermediate value theorem.
* **C168** total correctness of the velocities: C24 (error of a returned velocity) with C167 (a velocity is returned) and C25 (sum over planets).
* **C169** `rv_drive` and both solvers once more with rounded operations (`Model/Rounded.lean`); the assumptions on double precision are `Spec/Rounding.lean` (standard model with underflow, and the grid of doubles between 1 and 2, which keeps the tangent below 4e16). Errors are carried through every operation (`Lemmas/Rounding.lean`, `Lemmas/RoundedVel.lean`).
* **C173** `RVModel.__call__` with rounded operations (`Model/RoundedModel.lean`): the error of a rounded sum by induction on the list of its terms (`round_adds`), C169 for every planet.
* **C174** `loglike_jitter`, residuals and `logprob` with rounded operations (`Model/RoundedLike.lean`); a sum in any order is the relation `IsSum` (`Spec/RoundedLike.lean`), its error by induction on the tree of additions; the remaining operations one by one.
* **C175** `npStd`, `setYlim` and `rms_values` (`Model/PlotScale.lean`) on the arrays of the RV figure of C140 to C142; the scatter against the RMS by the identity of variances, the points outside by Chebyshev's inequality.
* **C176** `CeleriteLikelihood` with the package as a parameter (`Model/Celerite.lean`, contract `IsCelerite`); that the kernel is positive semidefinite by Schur products of the kernel of the Ornstein-Uhlenbeck process and of the cosine, the order of the data by reindexing.
* **C177** The save as a list of single operations on the file, eighteen per ensemble (`Model/SaveSteps.lean`); that they refine the save of `Model/Mcmc.lean`, and by counting datasets what a prefix leaves; sessions as in C67.
* **C178** The classification of words by argparse 3.11 proved equivalent to a specification of spellings (`Lemmas/CliWords.lean`); two lists of words with the same effect at one place have the same effect behind any words, by induction on the words in front.
* **C179** The constructors with `normalization` as a float that may be infinite or nan (`Verif/Model/PriorInit.lean`), case by case on the arguments; for legal ones the object is the one of C41 and C42.
* **C180** `__repr__` of every prior and of the posterior as texts (`Verif/Model/PriorRepr.lean`); injectivity by cutting lines at ends of line and fields at commas, by induction on the lines.
* **C181** The list of wrapped parameters and the step sampler (`Verif/Model/Wrapped.lean`); two velocity curves agree exactly for shifts by whole periods: the maximum of the curve is taken at one true anomaly only, and this determines the mean anomaly up to turns.
* **C182** Priors, the loop over them and the sum over instruments with operations that may round (`Verif/Model/RoundedPost.lean`, specification in `Verif/Spec/RoundedPost.lean`); errors of the terms are bounded one by one, the sums by the lemma of C173 and C174.
* **C183** The limits of the upper axis (`Verif/Model/YearAxis.lean`), astropy as a function with the contract `IsDecimalYear` (`Verif/Spec/YearAxis.lean`, on the calendar of C56); new year is never further than 1.5 days from a multiple of 365.2425 days, and interpolation keeps that.
* **C184** What is returned, with its shape (`Verif/Model/KeplerShape.lean`); the values by C20, the sum by induction over the planets.
* **C185** Phases with every operation rounded (`Verif/Model/RoundedPhase.lean`) by any function to a nearest number of 53 binary digits (`Verif/Spec/RoundedPhase.lean`; existence is proved). Remainders of multiples of the period's last digit are such multiples, so that nothing below the period rounds to it.
* **C186** The loop of `timebin` with a rounded upper limit (`Verif/Model/RoundedBins.lean`); induction over its turns. A limit rounded upwards lets no time in, because times are floating-point numbers themselves.
* **C187** `geterr` with rounded constants, products, means and differences (`Verif/Model/RoundedErr.lean`). The floating-point numbers nearest to 0.159 and 0.841 are within a third of a unit of them, so products that should be whole numbers round to these.
* **C188** `date2jd` and `jd2date` with rounding (`Verif/Model/RoundedDate.lean`), `timedelta` as in CPython's C code. The difference to the modified Julian date is exact, because both lie on a grid; the error is half a unit in the last place of the Julian date.
* **C189** Sums, means and variances of one bin of `fastbin` with rounding (`Verif/Model/RoundedFastBin.lean`); errors of the sums by induction. Which points are in the bin is that of C134.
* **C190** Weights, averages and errors of one bin of `timebin` with rounding (`Verif/Model/RoundedAverage.lean`), for any order in which `np.sum` adds; a calculus of numbers that agree up to k roundings.
* **C191** `__repr__` of the four kernels (`Verif/Model/KernelRepr.lean`), the formatting of numbers a parameter; the text is cut at its commas.
* **C192** `timebin` with every operation rounded (`Verif/Model/RoundedTimebin.lean`), from C186 and C190 by an invariant of its loop.
* **C193** `bintels` on top of the rounded `timebin` (`Verif/Model/RoundedBintels.lean`), compared with the exact one telescope by telescope.
* **C194** `round_sig` with a logarithm that has an error (`Verif/Model/RoundSigLog.lean`); next to a power of ten either number of decimals gives this power.
* **C195** `round` of numpy's numbers (`Verif/Model/NpRound.lean`): multiply, round to a whole number, divide, as numpy documents it; numpy's source was not at hand.
* **C170** Composition of C154 (posterior of a file in terms of the solver's velocities) and C168 (their accuracy); the rest is the effect of a shift of the residuals on a Gaussian density with and without marginalised mean (`Props/FileAccuracy.lean`, vocabulary at the end of `Spec/FileModel.lean`).
* **C171**, **C172** `Model/Tables.lean`: `from_synth` for DataFrames (cells may be nan), and the preparation of the samples in `RadvelReport.__init__`. C171 by the round trip between times of periastron and conjunction in each cell; the vocabulary (`IsReportRow`, `IsConjunction`, `IsCells`) is in `Spec/Tables.lean`.

## What is modelled and what is not, module by module

Modelled, function by function (`Model/*`):
* `model.py`: `Parameter`, `Parameters`, `Vector`, `RVModel.__call__`, `tex_labels` (`Params`, `TexLabels`, `Basis`); digits are the ASCII ones. Not: printing, `None` values inside arithmetic.
* `basis.py`: `to_synth`, `from_synth`, `v_to_synth`, `v_from_synth`, `to_any_basis`, name bookkeeping (`Basis`); `to_synth`, `from_synth` and `to_any_basis` for tables of samples (`Chains`, `Tables`).
* `orbit.py`, `kepler.py`, `_kepler` C source: all formulas, the C and the Python solver (`Kepler`, `Phase`). The shape of what is returned, and the dtype of times, are in `KeplerShape`; the rest of the model takes arrays entry by entry. Doubles are exact reals, and once more with rounding (`Rounded`, `RoundedModel`; phases: `RoundedPhase`). `tan` at its pole has Mathlib's value 0.
* `likelihood.py`: the classes, caches, composite likelihood, GP and celerite likelihoods, information criteria, printing (`Like`, `RVLike`, `GP`, `Posterior`, `Print`). Arrays of equal length are lists of rows. Not: assertions of
  `CompositeLikelihood` beyond those in the model; sharing of `Parameter` objects between dictionaries other than by basis conversions (C166); a data set with no rows; broadcasting of length-one arrays.
* `gp.py`: the kernels as functions and matrices (`GP`), their printed form (`KernelRepr`). Cholesky factorisation is replaced by exact inverse and determinant; celerite by its definition (`Celerite`: by a contract for the package).
* `prior.py`, `posterior.py`: all priors, `transform`, `logprob`, `aic`, `bic` (`Prior`, `Posterior`; with rounding, for four priors: `RoundedPost`). `norm.ppf`, KDEs and user functions are parameters. The transform of `NumericalPrior` (`NumPrior`, `NumPriorRows`). The texts of priors (`PriorText`, `PriorRepr`), with numbers as texts. `writeto` and `load` (`Load`): pickling is an equal copy. Constructors with any arguments (`PriorInit`).
* `utils.py`: binning, formatting, masses, densities, phases, dates, `geterr`, `draw_models_from_chain`, working directory (`Binning`, `Numbers`, `Masses`, `Phase`, `Draw`, `WorkDir`; with rounding, the division into bins, their averages, the error bars of `fastbin`, percentile errors and dates: `RoundedBins`, `RoundedTimebin`, `RoundedBintels`, `RoundedAverage`, `RoundedFastBin`, `RoundedErr`, `RoundedDate`). The histogram mode, argsort's order of ties, astropy's
  constants and scipy's root finder are parameters. `initialize_posterior` on what a setup file defines (`Setup`). `fastbin` (`FastBin`). Not: running the setup file (`load_module_from_file`).
* `mcmc.py`: `mcmc`, `convergence_check`, `convergence_calculate`, `_domcmc`, saving and resuming, starting positions (`Mcmc`, `Convergence`, `Scales`, `Walkers`), the line of the progress display (`Progress`). emcee's moves and autocorrelation times are parameters; multiprocessing, curses and timing are left out, keyboard interrupts except during a save (`SaveSteps`); HDF5 files are structured records.
* `fitting.py`: `maxlike_fitting`, `model_comp` (`MaxLike`, `ModelComp`). The optimiser is an arbitrary strategy.
* `nested_sampling.py`: all runners, keyword handling, files, `load_results` (`NestedSampling`). The packages are arbitrary functions, "polite" where a theorem says so; the file system has no links and paths are not normalised.
* `driver.py`: status file, path and keyword helpers, commands as steps on status and files (`Status`, `Driver`, `Pipeline`, `CompTable`); the computation of `derive` (`Derive`) and of the step after sampling (`Postprocess`). File contents are provenance only; every computation is an oracle that may fail; the same output directory
  throughout. `configparser` is modelled from the standard library for ASCII text without a DEFAULT section; `int()`/`float()` as exact decimals.
* `report.py`: the rows of the tables (`Report`, `RowText`, `CompTable`, `PriorText`, `Crit`), which figures it includes (`ReportFigs`), the samples its numbers come from (`Tables`). Not: templates.
* `plot/*`: `TrendPlot` of `mcmc_plots.py`, `AutoPlot` (`AutoPlot`), `CornerPlot`, `DerivedPlot` and `texlabel` (`TrendPlot`, `Report`, `Corner`), `telplot` and `mtelplot` (`Markers`), the panels of `MultipanelPlot` and `GPMultipanelPlot` and the data and band colours of the latter (`Panels`), the contents of the RV figure (`OrbitPlot`), its axis in years (`YearAxis`), its vertical axes and the RMS of its legend (`PlotScale`), the text of the phase panels (`Annotate`). Not: drawing itself, ticks, other texts.
* `cli.py`: the tables of options, the parser with all spellings of argparse 3.11, the output directory (`Model/Cli`), the keywords of `mcmc` (`CliMcmc`). Not modelled: the texts of `-h` and `--version` (both end the program: no namespace), `eval` of `--plotkw`.

## Index: where each property is proved

Modules are under `lean/Verif/`. Every theorem has the full English claim in its doc comment; `_partial` theorems say there what is missing.

* **C01** Every parameter owns one vector row — proved; `Props/Params`, `Props/Keys`. All user-built parameter sets in five-parameter bases, all reachable states (Built).
* **C02** Dictionary to vector to dictionary is the identity — proved; `Props/Params`. Values are elements of an arbitrary type; the one conversion None -> NaN done by numpy is not modelled.
* **C03** Vector names label the right rows — partial; `Props/Params`. Proved for all reachable states without user-defined keys; false with a user-defined key declared before the model (witnesses).
* **C04** Set/get round trip of free parameters — proved; `Props/Params`. Cache vary_params absent or current; stale caches are C06.
* **C05** Arrays of the wrong length are rejected and leave no trace — partial; `Props/Params`. The exception is proved for every wrong length; 'no trace' is false: vector rows are already overwritten (witness).
* **C06** Free parameters follow the current vary flags — partial; `Props/Params`. Proved for histories in which flag edits are followed by list_vary_params; false otherwise (witness).
* **C07** Pickle and deepcopy preserve Parameters — proved; `Props/Params`.
* **C08** Likelihood construction accepts predeclared extra parameters — partial; `Props/Params`. Proved when all keys without index belong to the likelihood being built; two witnesses of IndexError otherwise.
* **C09** Parameter labels identify planet and parameter — partial; `Props/TexLabels`. Proved up to nine planets; false from the tenth (witness). Labels of instrument, trend and GP keys: C150.
* **C10** Leaving the synth basis and coming back is lossless — partial; `Props/Basis`. Exact identity for 0 <= e < 1, k > 0, per > 0 where nothing is degenerate; at e = 0 in the secosw/ecosw bases the time of periastron and w are lost (witness), the curve is kept (C10_circular_partial).
* **C11** Fitting-basis parameters survive a round trip through synth — proved; `Props/Basis`. Every fitting basis, any number of planets.
* **C12** Vector and dictionary conversions agree — proved; `Props/Basis`. Values of the vector conversions against the dictionary conversions; vary flags are C84.
* **C13** Changing basis does not change the predicted curve — partial; `Props/Basis`, `Props/BasisWitness`. Proved for the pairs of bases that convert cleanly (CleanPair); witnesses for the others.
* **C14** Basis conversion does not alter its input — partial; `Props/BasisHeap`, `Props/Basis`. Proved on a store of objects: no existing Parameter object changes, nothing at all changes if the call raises, other parameter sets are unaffected, and exactly when the Basis object of the input is renamed. Violated: for five target bases it is renamed, and the same call made again raises KeyError.
* **C15** Transit time and periastron time are inverse — proved; `Props/Orbit`. Exact reals.
* **C16** The returned transit time is an inferior conjunction — proved; `Props/Orbit`. Exact reals; arguments where the code's tangent has its pole are excluded (never a double: rational_no_pole).
* **C17** The secondary-eclipse time is the next superior conjunction after periastron — partial; `Props/Orbit`. The returned time is always a superior conjunction between half and one and a half periods after periastron; 'within one period' is false (witness) and characterised exactly.
* **C18** Kepler solver postcondition — partial; `Props/Kepler`. Proved for every number returned, any number of iterations. A nan from a zero denominator is accepted as converged (witnesses for e > 1).
* **C19** Kepler's equation determines the answer — proved; `Props/Kepler`.
* **C20** The array solver treats every epoch independently — proved; `Props/Kepler`.
* **C21** C and NumPy velocity formulas coincide — proved; `Props/Orbit`. Exact reals; odd multiples of pi (never a double) excluded in C21_physical.
* **C22** Circular shortcut agrees with the general formula — proved; `Props/Orbit`.
* **C23** Velocities are periodic, bounded and proportional to k — proved; `Props/Orbit`.
* **C24** Velocity error caused by the solver tolerance — proved; `Props/Orbit`. Truncation error only; rounding is not modelled. rv_drive versions hold for e <= 0.99 (the code clamps larger e).
* **C25** The RV model is the sum of its planets and trend — proved; `Props/RVModel`. Any velocity function for a planet; zero amplitude for both code formulas.
* **C26** White-noise likelihood is a product of Gaussian densities — proved; `Props/RVLike`. Exact reals; a zero variance is characterised as nan.
* **C27** Analytic gamma is the exact marginal likelihood — partial; `Props/RVLike`. Proved without decorrelation; in general the exact correction factor is given, and a reachable witness where it is not 1.
* **C28** Composite likelihood is additive — proved; `Props/RVLike`. Members are white-noise likelihoods on one shared state, any number of them.
* **C29** The composite data vector holds the input velocities — partial; `Props/RVLike`. Times, errors and labels are right; velocities are right exactly when all later gammas are 0 at construction.
* **C30** The composite knows all GP hyperparameters — partial; `Props/RVLike`. True when the first member has no GP; otherwise its hyperparameters are missing.
* **C31** Decorrelation subtracts each variable with its own coefficient — partial; `Props/RVLike`. Proved for names without _ that occur only in their own parameter's name; witnesses for the others.
* **C32** Information criteria — partial; `Props/RVLike`. bic and Likelihood.aic as stated; Posterior.aic always raises.
* **C33** The order of the data does not matter — partial; `Props/RVLike`, `Props/GP`. White-noise likelihoods in full; GP likelihoods when the covariance matrix is positive definite; CeleriteLikelihood gets its data sorted after the kernel was given the unsorted times (witness).
* **C34** logprob_array is a function of its argument — partial; `Props/History`, `Props/GP`. Proved for every history of evaluations when no prior names an analytic gamma, and for GP likelihoods with amplitude and lengths that do not disable the kernel; reachable witnesses otherwise.
* **C35** Covariance matrices are symmetric with the right diagonal — partial; `Props/GPKernel`. Exact entries, symmetry, diagonal and bound for regular hyperparameters; zero lengths give nan, and a disabled QuasiPer kernel returns a square matrix whatever the distances.
* **C36** Covariance matrices are positive definite — proved; `Props/GPKernel`. Positive definiteness of the kernel functions is proved (Schur product, Gaussian and periodic kernels); the clipped QuasiPer kernel is covered for errors above n amp^2 e^-100.
* **C37** compute_covmatrix stores what it returns — partial; `Props/GPKernel`. A disabled QuasiPer kernel does not store its matrix.
* **C38** A GP with zero amplitude is white noise — partial; `Props/GP`. SqExp and Per as stated; a QuasiPer kernel with amplitude zero keeps an old matrix (or none).
* **C39** GP prediction is consistent — proved; `Props/GP`. For positive definite covariance matrices.
* **C40** The celerite term is the documented kernel — partial; `Props/GPKernel`. celerite's own evaluation of the coefficients is its documented term formula.
* **C41** One-parameter priors are proper densities — proved; `Props/Prior`. Exact reals; legal bounds (0 < minval < maxval, kneeval < minval); infinite HardBounds are characterised, not densities.
* **C42** Prior transforms are inverse CDFs — proved; `Props/Prior`. The Gaussian transform is SciPy's norm.ppf, which is a parameter of the model.
* **C43** Eccentricity prior rejects exactly the forbidden eccentricities — proved; `Props/Constraints`. Every basis, every list of planets and limits; the value for satisfied constraints assumes positive limits.
* **C44** Positive-K prior rejects exactly negative amplitudes — partial; `Props/Constraints`. Proved for the bases with k; in bases with logk the prior rejects every amplitude below 1 (exact characterisation and witness).
* **C45** Baseline prior is continuous and favours short periods — proved; `Props/Constraints`.
* **C46** Secondary-eclipse prior depends on phase only — partial; `Props/Constraints`. Invariant under whole periods; the phase difference is not wrapped, so eclipses on the two sides of periastron phase 0 are treated differently (witness).
* **C47** Posterior combines priors and likelihood — proved; `Props/Posterior`.
* **C48** check_proper_priors decides exactly when nested sampling is possible — partial; `Props/Posterior`. Exact characterisation of the check; it accepts two kinds of prior without transform and rejects two kinds with one (witnesses).
* **C49** Nested sampling and MCMC target the same posterior — partial; `Props/Posterior`. Proved for the classes of priors for which it holds; witnesses for the other three classes.
* **C50** Time binning partitions the data — proved; `Props/Binning`. For non-zero errors; the other cases are described by the last three theorems.
* **C51** Binning never mixes instruments — proved; `Props/Binning`.
* **C52** Phase folding — partial; `Props/Phase`. False in the bases with the logarithm of the period.
* **C53** Asymmetric errors are never negative — proved; `Props/Numbers`. The fullest histogram bin is an arbitrary function of the sample.
* **C54** Rounding to significant figures — proved; `Props/Numbers`. Over the reals: binary floating point is not modelled.
* **C55** Elapsed-time display — proved; `Props/Numbers`.
* **C56** Julian date conversion round trip — proved; `Props/Numbers`. Over the reals; the double precision of a Julian date (about 40 microseconds) is in C188.
* **C57** Msini inverts the semi-amplitude — proved; `Props/Masses`. The result of scipy's root finder is a hypothesis of C57_heavy; the astronomical constants are positive parameters.
* **C58** Kepler's third law — proved; `Props/Masses`. The astronomical constants are positive parameters.
* **C59** Working directory is always restored — partial; `Props/WorkDir`. Compiling leaves the caller elsewhere when the LaTeX program is missing or a step raises.
* **C60** Drawn models use the drawn samples — partial; `Props/Draw`. False: the rows never depend on the samples, and the dictionary is left with the last sample.
* **C61** Early stopping needs two consecutive passed checks after burn-in — partial; `Props/Mcmc`, `Props/McmcWitness`. False: the first of the two passed checks may have been made on burn-in samples.
* **C62** Number of MCMC steps — partial; `Props/Mcmc`. Both bounds are false: nrun + nrun/(checkinterval-1) steps are made, or none.
* **C63** Chain rows stay aligned — partial; `Props/Chain`. The table is proved; the trend plot fails when thin does not divide the number of stored steps.
* **C64** Gelman-Rubin statistic — proved; `Props/Convergence`. Over the reals; rounding is not modelled.
* **C65** Better mixing never fails the Tz test — partial; `Props/Convergence`. The Tz test is the wrong way round: perfectly mixed chains give Tz = -1.
* **C66** The first convergence check cannot pass — proved; `Props/Convergence`, `Props/Mcmc`.
* **C67** Interrupted runs resume from what was saved — partial; `Props/Save`. False when burn-in ends in the last saved round, and for files that already held more ensembles.
* **C68** Walkers start spread out — partial; `Props/Scales`. False for a period of one day, a log-period of 0 and periods that are not positive.
* **C69** Maximum-likelihood fit returns the optimiser's solution — partial; `Props/MaxLike`. False: maxlike_fitting discards the optimiser's solution, so the posterior is left at the last point evaluated.
* **C70** Model comparison enumerates every model once — partial; `Props/ModelComp`. False for the basis 'per tc tp e w k', which is missing from the tables of eccentricity parameters.
* **C71** Model comparison depends only on its arguments — partial; `Props/ModelComp2`. False when mc_list is left out: the default list is shared by all calls.
* **C72** The no-GP comparison model has no GP — partial; `Props/ModelComp2`. False: the reduced model keeps every hyperparameter free and the same counts.
* **C73** --fixjitter fixes the jitters — partial; `Props/ModelComp2`. False: the option only changes flags of the dictionary, which the comparison does not read; the result is the same with and without it.
* **C74** Comparison lists are deduplicated — partial; `Props/ModelComp2`. Deduplication is by label list, and different sets of free parameters can share one.
* **C75** Comparison-table verdicts — partial; `Props/CompTable`. Proved when no AICc is nan: the rows are sorted by AICc and each verdict is the one its difference to the best model calls for. False if an AICc is nan.
* **C76** nested_sampling.run can be repeated — partial; `Props/NestedSampling`. True if the dictionary that radvel adds keywords to is None or empty. False for every sampler if the caller passes a non-empty one: it is changed and the second call raises ValueError.
* **C77** Nested sampling without output directory leaves other files alone — partial; `Props/NestedSampling`. True for all samplers but multinest, and for multinest if there is no tmpdir and sampling succeeds. False for multinest otherwise: an existing tmpdir is deleted; after an error tmpdir is left behind. Packages are assumed to write only to the location they are given.
* **C78** Existing results are protected — proved; `Props/NestedSampling`.
* **C79** Status file behaves like a map of maps — partial; `Props/Status`, `Props/StatusLines`. Proved at the level of the file's text for any sequence of saves whose names and values fit on one line, from any readable file or none. False for values with spaces at the ends and for option names with a colon, in two spellings or starting with '#'.
* **C80** Status survives a crash — partial; `Props/Status`. False for every status file and every save: the file is emptied before it is written. Proved: it always holds the old content or a first part of the new one.
* **C81** Pipeline order is enforced — proved; `Props/Pipeline`. For every world that any sequence of commands reaches, whichever computations fail and even if output files are changed in between. Nested sampling has no prerequisite.
* **C82** Sampler choice — partial; `Props/Driver`. Proved: the sampler picked has been run, and it is the requested one or the request was auto. False: auto with both samplers run picks MCMC without asking.
* **C83** Command-line keyword parsing — proved; `Props/Driver`. Integers, decimals, booleans and other texts; the empty text raises (C83_empty).
* **C84** Vector conversions flag the rows they convert — partial; `Props/BasisFlags`. All bases except v_from_synth to 'per tc e w k', where the wrong row is flagged.
* **C85** Celerite sees each residual at its own time — partial; `Props/GPKernel`. Holds for data given in time order.
* **C86** Kernel hyperparameters are read from their own rows — partial; `Props/GPUpdate`. Exact condition for success, and then the right rows; two kinds of names violate it.
* **C87** Predictions leave the likelihood usable — partial; `Props/GPUpdate`. Holds for calls that return.
* **C88** GP likelihood is the multivariate normal density — proved; `Props/GP`.
* **C89** GP evaluation keeps dictionary and vector in step for hyperparameters — proved; `Props/GPUpdate`. Identity of Parameter objects is not modelled.
* **C90** Percentile errors do not change the sample — partial; `Props/Numbers`. False for angular samples.
* **C91** Formatting with errors — partial; `Props/Numbers`. Equal errors can come out different.
* **C92** Both phase functions agree — partial; `Props/Phase`. False in the bases with a time of transit.
* **C93** logjit conversion — partial; `Props/Draw`. Holds exactly when no logjit key is followed by another key.
* **C94** Density — proved; `Props/Masses`. The astronomical constants are positive parameters.
* **C95** Stored samples form one chain — partial; `Props/McmcWitness`. False: the second sample of each block is a move from the start of the block.
* **C96** A run returns its own samples — partial; `Props/McmcWitness`. False when no round is made; the table of the earlier run is returned.
* **C97** Runs complete — proved; `Props/Mcmc`.
* **C98** Returned samples are post-burn-in — partial; `Props/Chain`. False when burn-in ends in the last round.
* **C99** Starting scales follow the current values — partial; `Props/Scales`. False: the first run stores its scales in the parameter vector.
* **C100** Model comparison leaves the caller's posterior alone — partial; `Props/ModelComp2`. False for the empty comparison and for ['gp'], which fit the argument itself.
* **C101** Mixed comparisons enumerate every combination once — proved; `Props/ModelComp`.
* **C102** Samples and posterior belong together — partial; `Props/Provenance`. Proved for reports and for the nested sampler. Tables and derivation after MCMC: true exactly if nothing was fitted since; false after fitting again, because fit and mcmc write the same file.
* **C103** Derived parameters belong to the samples — partial; `Props/Provenance`. The parameters joined are always those of the last derivation; right after deriving they belong to the samples. False after sampling again.
* **C104** Tables do not depend on each other — partial; `Props/Complete`. The table of derived parameters is empty exactly if the comparison table is requested before it.
* **C105** Later steps find what they need — partial; `Props/Complete`. False only for the table of parameters, the table of derived parameters and reports after a fit that came later than the MCMC run (AttributeError).
* **C106** Saved nested-sampling results load back — proved; `Props/NestedSampling`. For distinct keyword dictionaries in C106_table.
* **C107** Packages are called with what was asked for — proved; `Props/NestedSampling`. For distinct keyword dictionaries (the two arguments are not the same non-empty object).
* **C108** An existing output directory can be used — partial; `Props/NestedSampling`. False for dynesty: a directory without sampler.save raises FileExistsError.
* **C109** Enough walkers start — proved; `Props/Walkers`.
* **C110** Rows of the parameter table show their own parameter — partial; `Props/Report`. False with instruments such as 'j' and 'j1': the row of gamma_j shows gamma_j1.
* **C111** Every extra parameter has one row — partial; `Props/Report`. False for instruments whose names contain 'jit', 'dvdt' or 'curv' (two rows, and the row of dvdt or curv is lost) or white space (no row).
* **C112** The parameter table lists all fitted parameters — partial; `Props/Report`. False for every fit: the rows of the fitted basis are those of the basis of the report. Time of conjunction missing after fits in 'per tp e w k'; decorrelation coefficients never listed.
* **C113** Units in the parameter table — partial; `Props/Report`. False with instruments such as 'h' and 'hires', and for a single instrument whose name has more than one character.
* **C114** Every derived parameter has one row — partial; `Props/ReportDerived`, `Props/Derive`. Proved for at most nine planets, any iteration order of sets, and mass, density and semi-major axis; false for ten planets, and the derived mass ratio has no row.
* **C115** Units of derived masses — partial; `Props/ReportDerived`. The solar unit is never reached; a second table of the same report shows Jupiter masses as Earth masses.
* **C116** The table of velocities is complete — partial; `Props/Report`. The note is wrong for short data sets; instrument names with two underscores give unbalanced braces.
* **C117** Every observation is used once — partial; `Props/Setup`. Observations of instruments that are not listed are dropped without a message; all others are used once.
* **C118** The posterior starts at the setup file's values — proved; `Props/Setup`. For setup files without logjit, whose conversion is C93.
* **C119** A complete setup file gives a posterior — proved; `Props/Setup`.
* **C120** GPs for some of the instruments — partial; `Props/Setup`. False: KeyError. If every listed instrument has hyperparameters, C119_ready applies.
* **C121** Decorrelation applies to every instrument — partial; `Props/Setup`. With GPs the option has no effect at all.
* **C122** Samples are converted row by row — partial; `Props/Chains`. Proved for all quantities at eccentricities from 0 to 1, and for all but the time of periastron otherwise. False above 1: nan in a table, the time of conjunction for parameters.
* **C123** Derived masses obey the laws they come from — proved; `Props/Derive`. The stellar mass is the absolute value of the number drawn; scipy's root finder is assumed to return roots in C123_heavy.
* **C124** Derived parameters depend on their own row — partial; `Props/Derive`. Reordering rows reorders the results. False: one heavy sample changes the formula for all rows.
* **C125** Derived columns are complete — proved; `Props/Derive`.
* **C126** Derived parameters come from the posterior — partial; `Props/Derive`. False for planets that only the setup file has.
* **C127** Derived densities are densities — partial; `Props/Derive`. Radii are drawn from a normal distribution and may be negative.
* **C128** Reported state of the posterior — partial; `Props/Postprocess`. Medians proved in full. The converted samples: all quantities for eccentricities from 0 to 1; otherwise all but the time of periastron (see C122), which C128_hyperbolic_violated shows to be false.
* **C129** Reported uncertainties are quantiles — proved; `Props/Postprocess`. For columns with at least one number; sigfig ends for enough fuel.
* **C130** Fixed parameters are reported unchanged — partial; `Props/Postprocess`. Proved for fixed parameters that are no converted ones, and for planets without free parameters. False for offsets marginalised analytically: uncertainty zero, median a leftover.
* **C131** Reports do not depend on the order of samples — proved; `Props/Postprocess`.
* **C132** Reported angles describe the samples — partial; `Props/Postprocess`. False near 180 degrees: samples that differ as little as one likes give an uncertainty of about 2 radians and a median in the opposite direction.
* **C133** Every parameter is reported — partial; `Props/Postprocess`. False if every sample of one planet has an eccentricity above 1: the step raises.
* **C134** Binned points show their bins — partial; `Props/FastBin`. Proved for parts whose centre is positive, in particular for points that are not negative, as in the phase panels. False for negative abscissas: such bins are dropped.
* **C135** Instruments can be told apart — partial; `Props/Markers`. Points, formats of the caller and colours from the list proved. False for more than nine instruments without formats, for suffixes that share a default format, and for a colour of the list that is also a default one.
* **C136** Panels agree on formats — partial; `Props/Markers`. Exact conditions proved for both parts. False if a format has no colour: it is added in place, and unknown instruments sorted after it change colour.
* **C137** One panel for every planet — partial; `Props/Panels`. Proved for MultipanelPlot with letters, and for the GP figure with separate panels and planets. False without letters, for nophase of the GP figure, without planets, and for the list of axes of a second figure.
* **C138** The GP figure shows the measured velocities — partial; `Props/GPPlot`. Proved for a first drawing in one panel with all options, and for the own instrument of separate panels. False for a second drawing and for later instruments of separate panels.
* **C139** GP bands have the colour of their data — partial; `Props/GPPlot`. Proved for instruments with formats or default formats. False for unknown instruments, and KeyError for formats without colour.
* **C140** The RV figure shows the measured velocities — partial; `Props/OrbitPlot`. Proved for instruments with different suffixes, without decorrelation or with variables for which it works (C31), with the exact condition under which the figure is made. False for a posterior without dvdt or curv: KeyError.
* **C141** Phase panels show one planet — partial; `Props/OrbitFold`. Proved for instruments with different suffixes, without decorrelation or with variables for which it works (C31), and periods other than zero; the distance from curve to point for positive periods. For negative ones it is false: the phase is folded with the period, but the velocity of an eccentric orbit is computed with 1e-4.
* **C142** Binned points of a phase panel — partial; `Props/OrbitFold`. Same restriction as C141.
* **C143** The time axis tells the time — partial; `Props/OrbitTime`. Proved without a chosen range, and for a chosen range with full dates and a nonzero whole epoch. False for a chosen range with reduced dates or epoch 0: no part of the curve is visible; false for an epoch with a fraction: the label is another number.
* **C144** A command line has one meaning — proved; `Props/Cli`. All spellings argparse 3.11 accepts: abbreviations, --name=value, attached values, bundled letters, negative numbers.
* **C145** Commands find their arguments — partial; `Props/Cli`. Proved for every command line with a subcommand. False without one: AttributeError.
* **C146** Accepted requests are understood — partial; `Props/CliTypes`. Proved when -t is used, and for samplers in full. Without -t, ic fails an assertion and plot and table raise TypeError.
* **C147** Switches mean what they say — partial; `Props/CliTypes`. Proved for the switches of ic. False for --serial False, which means serial.
* **C148** Commands have an output directory of their own — partial; `Props/CliDir`. Proved: existence, name, nothing else made, errors change nothing. False: setup files whose names agree up to the first dot share a directory; without -s and -d TypeError.
* **C149** Every option has an effect — partial; `Props/CliDir`. Proved for fit, plot, mcmc and ns. False for --header of table and --decorr of table, derive and report.
* **C150** Labels of instrument parameters name the instrument — partial; `Props/Labels`. Proved for names of instruments that contain no name of a parameter and, for hyperparameters, do not end in a digit. False for the celerite hyperparameters B, C and L (a brace too many), for hyperparameters of instruments whose name ends in a digit (taken for a planet; KeyError with planet letters), and for logjit.
* **C151** The table of priors describes every prior — partial; `Props/PriorText`. Proved for default letters and labelled parameters of at most nine planets. False with letters of the user's, for eccentricity limits from the tenth planet on and for numerical priors that name no parameter or one twice (no table at all), for the baseline prior (no label), and for the lines (an empty one after every prior).
* **C152** The report shows the figures that were made — partial; `Props/ReportFigs`. Proved for figures drawn under their usual names. False for new samples after drawing (old figures beside new tables), for RV figures saved with saveplot (left out, replaced by the old one, shown under another caption, or no report at all), and if a figure that the report does not show was removed.
* **C153** What is typed reaches the sampler — partial; `Props/CliMcmc`. The settings typed reach the sampler. Defaults: false for thin (10 instead of 1), and the help names wrong defaults for minAfactor and maxArchange.
* **C154** The posterior that a setup file defines — partial; `Props/FileModel`, `Props/FileDecorr`. From the file to the number, for MCMC and for nested sampling, composed from the theorems on setup, array, model, likelihoods, priors and history. A logjit parameter at the end of the file means the jitter it says; elsewhere it raises (C93). With decorrelation there is one more free parameter for every instrument and variable, and the density is that of the decorrelated velocities, too low by the factor of C27 for a marginalised offset. Missing: decorrelation variables for which C31 fails and priors on their coefficients (Gaussian processes: C155).
* **C155** The posterior of a setup file with Gaussian processes — partial; `Props/GPPost`. From the file to the number, including histories after which kernels hold other hyperparameters. Missing: celerite, hyperparameters with zero lengths or a disabled kernel. False for gammas that are linear and fixed: GP likelihoods use their stored value instead of integrating over them.
* **C156** Printing shows the fit and changes nothing — partial; `Props/Print`. Lines, rows and later evaluations proved. False for values edited in the dictionary (printing sets them back), for flags edited there (shown but not used), and for the column of an uncertainty with ten characters or more.
* **C157** The table of convergence criteria — proved; `Props/Crit`. From the numbers that the sampler leaves through the status file to the rows. float(text) is an exact decimal; the binary rounding that decides ties is not modelled.
* **C158** The progress display — partial; `Props/Progress`. What is counted, and the line as long as the count is within the total. False at the end of runs (102% with the defaults, bar wider than its frame), for the last hundredth (full bar too early) and for continued runs (old steps counted against the new total).
* **C159** Loading gives back the saved posterior — partial; `Props/Load`. Evaluations: proved for all posteriors, histories and arrays. Dictionary: proved if it has every parameter of its basis; otherwise loading adds the missing ones, without a value and free (the clean-up loop of load compares the wrong thing, and would raise if it found something).
* **C160** The plot of autocorrelation times — partial; `Props/AutoPlot`. Rows: proved for all runs and histories. Figure: drawn if there is a row and the times are finite; all rows are in the axes. Violated: without a check after burn-in the plot raises KeyError; the line is outside the axes while the criterion is far from met; with a negative time the line does not separate the checks that met the criterion.
* **C161** Corner and trend plots show the free parameters, and every planet has one letter — partial; `Props/Corner`. Corner and trend plot: proved if dictionary and vector agree. Derived plot: proved if each planet has a letter. Letters: agree for up to nine planets if setup file and Parameters have the same letters. Violated: letters given only in the setup file; more than ten planets; a flag set after sampling raises KeyError; a figure that fails leaves font size 12 for all later ones.
* **C162** The transform of a numerical prior is the quantile function of its sample — partial; `Props/NumPrior`, `Props/NumPriorRows`. Proved: non-decreasing; within the range, half a bin from its ends; a quantile up to half a bin below and a bin and a half above. Violated: the first bin collapses to its middle; results are biased low by half a bin at each edge. These are for one parameter. With several, the transform is one number made from the values of all of them, whatever value belongs to whatever parameter (C162_several_violated).
* **C163** Rows of the parameter table show their numbers — partial; `Props/RowText`. Proved for distances above 1.1e-12, for fixed values to four decimals, and for repeated rows of angles within one turn of zero. Violated: fixed values below 0.00005 are shown as zero; one vanishing distance makes a sampled parameter look fixed; the best-fit angle is not moved with the samples.
* **C164** Masses in the phase panels belong to the orbits drawn — partial; `Props/Carried`. Proved: the figure shows the last fit or MCMC run, with masses exactly if they were derived from MCMC samples since the last fit; right after deriving they belong to the orbits. Violated: a second MCMC run keeps the masses of the first; after a new fit, masses of the old samples are written next to the new orbits.
* **C165** Phase panels state the reported orbit and mass — partial; `Props/Annotate`. Proved for planets 1 to 9: after sampling the panel repeats exactly the reported medians and errors (formatting them a second time changes nothing); without sampling, values to two decimals; the mass is within half of its error and in the unit written. Violated: small fixed or fitted values read 0.00; with letters of one's own the mass carries another letter; one nan among the masses, or an eleventh planet, makes the figure fail.
* **C166** Converted parameters can be edited on their own — partial; `Props/BasisHeap`. Proved for the orbital parameters of the new basis: they are new objects. Violated for all other parameters (gamma, jit, dvdt, curv, GP): they are the same objects in both sets, so that editing or fitting one changes the other.
* **C167** The Kepler solver finishes — partial; `Props/KeplerEnd`, `Props/KeplerEdge`. NumPy: proved for all arrays with 0 <= e < 1, at most 27 passes (3 for e <= 3/5), every entry a solution to 1e-12. C: proved for 0 <= e <= 0.99; false for e = 0.9999, where some mean anomaly makes a denominator vanish. Both versions of rv_drive, which replace eccentricities above 0.99, return a number for all periods but 0. Missing: the C solver between 0.99 and 1, and rounding.
* **C168** Velocities exist and are accurate — proved; `Props/Accuracy`, `Props/Orbit`. Truncation error only; rounding is not modelled. Anomalies of exactly half a turn, where the tangent of the formula does not exist, are excluded; they are never doubles.
* **C169** Velocities in double precision — proved; `Props/Rounding`. For the velocities returned; that the solvers also finish in double precision is not proved (C167: exact arithmetic). Overflow is not modelled. C169_exact: without rounding the rounded program is the program of the other theorems.
* **C170** The posterior is that of the exact orbits — proved; `Props/FileAccuracy`. Exact arithmetic but for the tolerance of the Kepler solvers (rounding of velocities: C169). At anomalies of exactly half a turn, where the formula of the code has an infinite tangent, nothing is claimed.
* **C171** The samples of the report are the samples — partial; `Props/Tables`. Proved for samples with eccentricity up to 1. False above: tp and tc are nan, and the quantiles of the report's tc silently leave such samples out, though tc was sampled.
* **C172** from_synth converts tables like parameters — partial; `Props/Tables`, `Props/TablesNan`. Row by row for the four bases whose branch does not ask for planet_parameters, and for all bases if the table has this attribute, also when it names a time of conjunction and no time of periastron (up to eccentricity 1). Roots of negative eccentricities and logarithms of negative numbers are nan. Tables made by to_synth do not have it: AttributeError; keep=False always raises, so that to_any_basis converts samples to two bases only.
* **C173** The velocities of a model survive rounding — proved; `Props/RoundedModel`. For the velocities returned (that the solvers finish in double precision is not proved; C167 has it for exact arithmetic). In other bases the theorems hold for the exactly converted elements. Overflow is not modelled. C173_exact: without rounding this is the model of the other theorems.
* **C174** The log-likelihood survives rounding — proved; `Props/RoundedLike`. Without decorrelation and marginalised gamma; overflow and nan are not modelled. C174_model composes with the velocities of C173; C174_exact: without rounding this is the function of the other theorems.
* **C175** Vertical axes and legend RMS of the RV figure — partial; `Props/PlotScale`. The code uses the standard deviation, which is the RMS exactly if the mean of the data is zero (C175_scatter). Otherwise no data may be within the limits (C175_hidden_violated), and an instrument with one observation has no RMS (C175_legend_violated).
* **C176** Likelihood and predictions with the celerite kernel — partial; `Props/Celerite`. The package celerite is a parameter with the contract IsCelerite (what it documents, exact arithmetic, times in order). logprob is proved for data in the order of time (otherwise see C85), predict for any order. A negative jitter, which the likelihood accepts, makes the predictions nan (C176_jitter_violated); for C below -1 the matrix may be indefinite (C176_C_violated).
* **C177** Stopping a run while it saves — partial; `Props/SaveSteps`. True before the first and after the last operation of a save. Between two of the eighteen operations on one ensemble nothing can be continued (C177_lost_violated); between two ensembles the continued run mixes two rounds (C177_between) and may keep burn-in samples as samples of the chain (C177_mixed_violated). Every executed operation is assumed to be in the file.
* **C178** Spellings of a command line — partial; `Props/CliSpell`. The spellings mean the same wherever they stand, and ambiguous ones are refused. False: --s means --setup for fit and is refused by all other subcommands (C178_across_violated); negative counts are accepted by mcmc (C178_negative_violated).
* **C179** Priors with meaningless arguments are refused — partial; `Props/PriorInit`. An accepted prior can be used exactly when its arguments describe a distribution (C179_exact), and legal arguments are accepted. False that the others are refused: only a lower bound of 0 (Jeffreys) and a lower bound not above the knee (ModifiedJeffreys) are; what the accepted ones do is in the _violated theorems. Arguments are floats of Python; warnings are left out.
* **C180** A printed posterior determines its priors — partial; `Props/PriorRepr`. Exactly what the text determines is C180_exact; the whole list if everything of each prior is printed. False for secondary eclipses (planet not printed), positive amplitudes (number of planets not printed), numerical and user-defined priors (samples and function not printed). Numbers and lists enter as texts.
* **C181** Parameters declared circular are circular — partial; `Props/Wrapped`. Exactly the times of planets are declared circular, whatever their priors. That is right exactly if the bounds are a whole number of periods apart (closed orbits with an amplitude); false otherwise. Angles are circular and not declared so. Priors other than uniform ones are not treated: their ends are infinite or not defined.
* **C182** The log-posterior survives rounding — proved; `Props/RoundedPost`. Widths of Gaussians from 1e-50 on, Jeffreys priors over a factor of two at least; at most 10000 priors and instruments. The other priors are left out; overflow and nan are not modelled. C182_data composes with the likelihoods of C174; C182_exact: without rounding these are the priors of the other theorems.
* **C183** The axis of years tells the year — partial; `Props/YearAxis`. Proved for full Julian dates, and for dates reduced by the epoch of which one is before epoch - 2400000, with the restrictions of C143. False for dates reduced by another number: modified Julian dates appear 6500 years too early. In figures with Gaussian processes a line at the height of the year is drawn against the velocities. astropy's decimalyear is the Gregorian calendar.
* **C184** rv_drive answers with one velocity per time — partial; `Props/KeplerShape`. Proved: the entries of whatever is returned, exactly when it is not an array, exactly when it raises, and the sum over planets. False: without the C extension one time gives a number and no times IndexError; with it integer times give ValueError. A solver that does not end is left out; an exit of the C code counts as nan.
* **C185** Phases in floating point — partial; `Props/RoundedPhase`. Proved: the error, and the range with 1 included; below 1 if all times have the same last digit and the period is not too long, in particular for full Julian dates. False otherwise: shortly before the reference time the phase is exactly 1. Overflow and underflow are left out.
* **C186** Time binning in floating point — partial; `Props/RoundedBins`. Proved for bin sizes above the rounding error of the times. False below: the loop never ends. Only the division into bins (means: C190); without rounding it is that of C50 (timebin_split).
* **C187** Percentile errors in floating point — proved; `Props/RoundedErr`. The sums overflow for no sample here, since exponents are not limited.
* **C188** Julian dates in floating point — partial; `Props/RoundedDate`. Dates come back within 40 microseconds (20 before the year 6700) of their whole second, and every second has a later Julian date than the one before. Not exactly: one second after noon of 1 January 2000 comes back as 12:00:00.999995.
* **C189** Error bars of binned points in floating point — partial; `Props/RoundedFastBinSize`, `Props/RoundedFastBin`. The bound is (6 n + 36) half units in the last place of the largest square. The error bar is a number for variances above it. False for smaller ones: five values of 1.33 have the error bar nan, without a warning.
* **C190** Averages of time bins in floating point — partial; `Props/RoundedAverage`. The averages are within (4 n + 16) half units in the last place of the largest value, the errors within 2 n + 8 of theirs. The range is not kept: three velocities of 7 with equal errors have an average below 7.
* **C191** Printed kernels — proved; `Props/KernelRepr`. The text of a number is a parameter: it is assumed to contain no comma and to differ for different numbers of a set that holds the hyperparameters, such as the doubles. The covariance is that of the three dense kernels.
* **C192** Time binning in floating point, as a whole — partial; `Props/RoundedTimebin`. Where the sums of times and bin size need no rounding, the result is that without rounding up to the errors of the averages. Proved for bin sizes above the rounding errors of the times, with bins that begin a bin size less a rounding error apart. In full it is false: an observation at a sum that was rounded down gets a bin of its own, and with a smaller bin size the loop does not end.
* **C193** Binning by telescope in floating point — partial; `Props/RoundedBintels`. Proved where the sums of times and bin size need no rounding. Otherwise it is false: an observation at a sum that was rounded down gets a bin and a label of its own.
* **C194** Significant figures with a computed logarithm — proved; `Props/RoundSigLog`. The rounding error of the logarithm only; round itself is exact, as in C54. C194_decimals: the number of decimals does change.
* **C195** Decimals in floating point — partial; `Props/NpRound`. Not always the nearest decimal: C195_nearest_violated. The steps of numpy's round are taken from its documentation; C195_kept for decimals with up to 15 digits.

## Findings: where the code does not do what the property says

Each item is a proved theorem about the model (a witness, or a statement for all inputs of a class).

* **C03** Vector names label the right rows
  * `C03_names_violated`: C03 is false with a user-defined key: the vector has nine rows, only eight names, so `names` no longer labels the rows.
  * `C03_name_vary_violated`: ... and once a likelihood adds a key, the free-parameter names are shifted: the new parameter's row 9 is free, but `name_vary_params` looks up `names[9]`, which does not exist, and raises.
* **C05** Arrays of the wrong length are rejected and leave no trace
  * `C05_no_trace_violated`: C05, second half, is false: an array that is too long (or too short) is rejected only after the values have been written.
* **C06** Free parameters follow the current vary flags
  * `C06_stale_violated`: C06 in full is false: after one call, swapping which of two parameters is free (same count) is not noticed - `set_vary_params` then overwrites the fixed parameter and leaves the free one.
* **C08** Likelihood construction accepts predeclared extra parameters
  * `C08_predeclared_violated`: C08 is false for a decorrelation coefficient declared before the model is created (e.g. in the setup file to give it a prior or a starting value): the construction of the likelihood raises `IndexError`.
  * `C08_two_instruments_violated`: C08 is also false when jitters for two instruments are declared between the creation of the model and of the likelihoods: the second likelihood raises `IndexError`.
* **C09** Parameter labels identify planet and parameter
  * `C09_tenth_violated`: C09 is false from the tenth planet on: `per10` is labelled `per1` of planet `a` ...
  * `C09_tenth_letters_violated`: ... and with custom letters for planets 1 to 10 the call raises `KeyError` (letter of planet 0).
* **C10** Leaving the synth basis and coming back is lossless
  * `C10_tp_violated`: C10 is false for circular orbits as stated: going through `per tc secosw sesinw k` moves the time of periastron (by a quarter period for `w = π/2`), because `w` is lost when `e = 0`.
* **C13** Changing basis does not change the predicted curve
  * `C13_blank_violated`: C13 is false whenever the target basis uses a synth word (per, tp, e, w or k) that the source basis lacks: `to_synth` gives that parameter the flag `''`, which `Vector` cannot store, so no model can be built from the result. This holds for every number of planets and all values.
  * `C13_logper_violated`: C13 is false for the target `logper tp e w logk`: a circular orbit of period 4 and amplitude 1 at its maximum is predicted to be at zero velocity after the conversion, whatever the solver.
  * `C13_copy_violated`: C13 is false for a copy of the converted parameters: with `secosw = 1/2`, `sesinw = 0` (so e = 1/4) the copy reaches velocity 1.5 k, which the original orbit never does. The solver is any one that solves the trivial equation `M = 0`.
* **C14** Basis conversion does not alter its input
  * `C14_twice_violated`: C14 is false as a history of two calls on the same objects: the first conversion of a synth set to one of five bases succeeds, the second, made with the same `params` right afterwards, raises `KeyError`.
  * `C14_second_call_violated`: C14 is false: after one conversion of a synth parameter set to any of five bases, the input claims to be in the new basis, and the same call made again raises `KeyError`. This holds for every number of planets ≥ 1 and all values.
* **C17** The secondary-eclipse time is the next superior conjunction after periastron
  * `C17_window_violated`: C17 is false as stated: for a circular orbit with period 1, periastron at 0 and ω = π the returned time is 1.25, one full period after the secondary eclipse that follows periastron.
* **C18** Kepler solver postcondition
  * `C18_nan_violated`: C18 is false for unphysical eccentricities, NumPy solver: there is a mean anomaly for which `kepler` returns nan at `e = 10`.
  * `C18_c_nan_violated`: C18 is false for unphysical eccentricities: with `e = 2`, `M = π/3` the derivative vanishes, the step produces nan, and the C solver returns it as converged.
* **C27** Analytic gamma is the exact marginal likelihood
  * `C27_decorrelation_violated`: C27 in full is false: with a decorrelation variable the gamma that is subtracted ignores the decorrelation terms, and `exp(logprob)` is not the marginal likelihood. Witness: an `RVModel` without planets, two observations with errors 1 and 2, one variable, a reachable state.
* **C29** The composite data vector holds the input velocities
  * `C29_velocities_violated`: C29 in full is false: with two instruments whose second gamma is not 0 (any reachable state), the composite velocities are not the input velocities.
* **C30** The composite knows all GP hyperparameters
  * `C30_hnames_violated`: C30 in full is false: a hyperparameter that belongs to the first member only is never listed, whatever the members are.
* **C31** Decorrelation subtracts each variable with its own coefficient
  * `C31_substring_violated`: C31 in full is false: with the two variables `s` and `bis`, the coefficient of `bis` also multiplies the variable `s` (its square for this order), because `'s' in 'c1_bis'`.
  * `C31_underscore_violated`: C31 in full is false for names with an underscore too: the variable `a_b` makes every evaluation fail with a `KeyError`.
* **C32** Information criteria
  * `C32_posterior_aic_violated`: C32 for `Posterior.aic` is false: it never returns a value (`raise self.likelihood.aic()`).
* **C33** The order of the data does not matter
  * `C33_celerite_violated`: C33 for celerite is false: of two orders of the same two observations, one gives every time its own velocity and uncertainty, the other one exchanges them.
* **C34** logprob_array is a function of its argument
  * `C34_gamma_prior_violated`: C34 in full is false: with a prior on an analytically marginalised gamma, `logprob_array([0])` depends on what was evaluated before.
  * `C34_gp_stale_violated`: C34 in full is false for GP likelihoods: with a quasi-periodic kernel whose amplitude is zero, the value is `-inf` at first, but finite after an evaluation with another amplitude (whose covariance matrix is used).
* **C35** Covariance matrices are symmetric with the right diagonal
  * `C35_length_zero_violated`: C35 in full is false: with `gp_length = 0` the squared-exponential and periodic kernels have nan on the diagonal, whatever the times, the amplitude and the errors (the limit of the formula would be amplitude²).
  * `C35_disabled_violated`: C35 in full is false: with `gp_per = 0` (or another zero) and amplitude 3 the quasi-periodic kernel has the squared error alone on the diagonal.
* **C37** compute_covmatrix stores what it returns
  * `C37_disabled_violated`: C37 in full is false: a quasi-periodic kernel with amplitude zero stores nothing — an earlier matrix stays — and what it returns is square even where the distance matrix is not. This holds for every such kernel.
* **C38** A GP with zero amplitude is white noise
  * `C38_quasi_violated`: C38 in full is false: with the quasi-periodic kernel and amplitude zero the first evaluation gives `-inf`, the white-noise likelihood a finite number.
* **C40** The celerite term is the documented kernel
  * `C40_negative_C_violated`: C40 without `C ≥ -1` is false: with `B = 1`, `C = -3/2` the covariance at lag 1 exceeds `B` in absolute value (`L = 2`, `P = 2`).
* **C44** Positive-K prior rejects exactly negative amplitudes
  * `C44_logk_violated`: C44 in full is false: in basis `per tc secosw sesinw logk` a planet of amplitude `1/e > 0` is rejected.
* **C46** Secondary-eclipse prior depends on phase only
  * `C46_wrap_violated`: C46 in full is false: for a circular orbit with `w = 3π/2` the eclipse is at periastron (phase 0). An eclipse measured `δ` periods after the predicted one is penalised as `δ` periods, one measured `δ` periods before it as `1 - δ` periods.
* **C48** check_proper_priors decides exactly when nested sampling is possible
  * `C48_no_transform_violated`: C48 in full is false: `InformativeBaselinePrior` and infinite `HardBounds` pass the check but their transform raises.
  * `C48_unrecognised_violated`: C48 in full is false: a `NumericalPrior` or `UserDefinedPrior` with a transform is the only prior of a free parameter, yet the check raises.
* **C49** Nested sampling and MCMC target the same posterior
  * `C49_eclipse_violated`: C49 in full is false: a `SecondaryEclipsePrior` is accepted by the check, but every nested sampling likelihood then raises `TypeError`, in every state.
  * `C49_ignored_violated`: C49 in full is false: a `NumericalPrior` or `UserDefinedPrior` beside an accepted prior is used by MCMC and ignored by nested sampling.
* **C52** Phase folding
  * `C52_logper_violated`: C52 is false for the bases with `logper`: `t_to_phase` raises `KeyError` for every such parameter set.
* **C59** Working directory is always restored
  * `C59_compile_violated`: C59 is false for `compile`: if LaTeX cannot be started, it returns normally with the process in the temporary directory, which is left behind; if any step after entering the temporary directory raises, the process is left there as well.
* **C60** Drawn models use the drawn samples
  * `C60_rows_violated`: C60 is false: whatever the chain and the draws, every row returned is the model as it was before the call.
  * `C60_violated`: C60, concretely: the slope is 1 in the model and 2 in the only sample of the chain; the row for that sample at time 1 is 1, while the model for the sample's parameters has the value 2 there.
  * `C60_labels_violated`: C60, labels: the drawn index labels are used as positions, so a chain whose labels all lie beyond its length (for instance one with the burn-in rows dropped and the old labels kept) raises `IndexError`.
  * `C60_params_violated`: C60, side effect: with the usual index labels `0, 1, ..`, a completed call leaves in the dictionary, for every free parameter, the value of the last drawn sample, with `mcmcscale` and `linear` reset; the fixed parameters are unchanged. (The property asks for all parameters to be as before.)
* **C61** Early stopping needs two consecutive passed checks after burn-in
  * `C61_violated`: C61 is false, also with `maxGR ≤ burnGR`: a run that stops early although the first of the two passed checks was made on burn-in samples.
* **C62** Number of MCMC steps
  * `C62_most_violated`: C62, upper bound false: whenever `nrun` is a positive multiple `k` of `checkinterval - 1` and the run does not stop early, every walker makes `nrun + k` steps.
  * `C62_least_violated`: C62, lower bound false: if `2·nrun < checkinterval - 1`, no step is made at all; a first run then fails with `AttributeError`.
* **C63** Chain rows stay aligned
  * `C63_trend_violated`: C63, the trend plot is false with thinning: one ensemble of two walkers, three stored steps and `thin = 2` give a table that the trend plot cannot reshape.
* **C65** Better mixing never fails the Tz test
  * `C65_good_mixing_violated`: C65 is false: if for every parameter the variance of the chain means is at most `W/n`, the value expected from independent draws (or smaller), then all Tz numbers are discarded, `-1` takes their place, and the criterion fails for every `minTz ≥ -1`.
* **C67** Interrupted runs resume from what was saved
  * `C67_burn_violated`: C67 is false: when burn-in ends in the last saved round, the file says that it has not, and proceeding brings the burn-in samples back as samples of the chain.
  * `C67_leftover_violated`: C67 is false for files that held a run with more ensembles: the file is opened for appending, old datasets stay, and a run saved to it cannot be continued although ensembles, walkers and parameters are the same.
* **C68** Walkers start spread out
  * `C68_period_violated`: C68 is false for a period of exactly one day: whatever the random numbers, all walkers start with the same period.
  * `C68_logper_violated`: C68 is false for a log-period of 0.
  * `C68_negative_violated`: C68 is false for a period that is not positive: the scale is nan, and so are all starting positions.
* **C69** Maximum-likelihood fit returns the optimiser's solution
  * `C69_violated`: C69 is false for every posterior and every point that is worse than the starting point: an honest optimiser that evaluates the starting point, then the worse point, and returns the starting point, leaves the posterior at the worse point.
* **C70** Model comparison enumerates every model once
  * `C70_basis_violated`: C70 is false for one of the valid basis names, 'per tc tp e w k': no comparison of any kind can be made with it.
* **C71** Model comparison depends only on its arguments
  * `C71_violated`: C71 is false whenever `mc_list` is left out: a second identical call returns the entries of the first call as well, so that its result is twice as long.
* **C72** The no-GP comparison model has no GP
  * `C72_violated`: C72 is false for every posterior with a GP amplitude: the model labelled as the one without the GP has the same free parameters, the same labels and the same parameter counts as the one with the GP.
* **C73** --fixjitter fixes the jitters
  * `C73_violated`: C73 is false for every posterior: the option changes nothing.
  * `C73_witness_violated`: C73, a concrete case: with `--fixjitter` the jitter is free in the models compared.
* **C74** Comparison lists are deduplicated
  * `C74_sets_violated`: C74 is false for sets of free parameters: of two compared models, one with the planet (period and slope free) and one without it (only the slope free), only the second is kept, since the labels mention neither periods nor times.
* **C75** Comparison-table verdicts
  * `C75_nan_violated`: C75 is false if an AICc is nan: a model without a likelihood that comes first in the list is called the favoured one, and the other has no verdict although its AICc is a number.
* **C76** nested_sampling.run can be repeated
  * `C76_violated`: C76: a non-empty dictionary that radvel adds its keywords to is changed by a successful call, and the same call again, with `overwrite=True`, raises `ValueError`.
* **C77** Nested sampling without output directory leaves other files alone
  * `C77_tmpdir_violated`: C77: multinest with `output_dir=None` deletes everything at and below `tmpdir` in the working directory, whatever was there before.
  * `C77_leftover_violated`: C77: a call of multinest with `output_dir=None` that raises while sampling leaves the directory `tmpdir` behind.
* **C79** Status file behaves like a map of maps
  * `C79_space_violated`: C79 is false for values with spaces at the ends: a path in a directory whose name starts with a space is read back without it.
  * `C79_colon_violated`: C79 is false for option names (these come from the command line in `radvel ns`) that have a colon: the option is lost and another one appears.
  * `C79_case_violated`: C79 is false for option names that differ only in case: both are the same option. Here a keyword `RUN` of the sampler makes the status say that sampling was not run.
  * `C79_comment_violated`: C79 is false for names that look like comments: one cannot be read back at all.
* **C80** Status survives a crash
  * `C80_violated`: C80 is false for every status file and every save: a crash right after the file was opened loses everything, old and new: every section of the status is gone, so that for instance the fit has to be run again.
* **C82** Sampler choice
  * `C82_both_violated`: C82 is false for `auto` when both samplers have been run: no error, the MCMC chains are taken silently.
* **C84** Vector conversions flag the rows they convert
  * `C84_from_synth_violated`: C84 is false for `v_from_synth` into `per tc e w k`: for every planet the argument of periastron becomes free, although its row is not converted, and the row of the time of conjunction, which is converted, keeps its flag.
* **C85** Celerite sees each residual at its own time
  * `C85_unsorted_violated`: C85 in full is false: with two observations in decreasing order of time the solver receives each time with the velocity and the uncertainty of the other one.
* **C86** Kernel hyperparameters are read from their own rows
  * `C86_name_violated`: C86 in full is false: a squared-exponential kernel accepts the parameter names `gp_length1` and `gp_amp` at construction, but every later call of `logprob`, `predict` and `residuals` raises a `KeyError`.
  * `C86_suffix_violated`: C86 in full is false: with a suffix that contains `length`, such as `_mylength`, the quasi-periodic kernel does not recognise its period and the constructor raises a `KeyError`, although every name has the form `gp_NAME` or `gp_NAME_SUFFIX`.
* **C87** Predictions leave the likelihood usable
  * `C87_singular_violated`: C87 in full is false: a `predict` that raises (here because the covariance matrix is singular) leaves the kernel with the distances between prediction and data times; after the vector has been set to good values `logprob` returns a finite number that is not the log density of the data.
  * `C87_disabled_violated`: C87: with a quasi-periodic kernel of amplitude zero, `predict` at any number of times other than that of the data raises a `ValueError`, in every reachable state, and leaves the wrong distances.
* **C90** Percentile errors do not change the sample
  * `C90_angular_violated`: C90 is false for angular samples: whenever the fullest bin starts beyond a quarter turn, every negative angle in the caller's array is moved by a full turn.
* **C91** Formatting with errors
  * `C91_symmetric_violated`: C91 is false: equal errors in, different errors out. A value with the symmetric error 1234.0 is returned with the errors 1200 and 1234.
* **C92** Both phase functions agree
  * `C92_transit_violated`: C92 is false in a basis with `tc`: at the time of transit of `phaseParams` the phase is 0 by `t_to_phase` and 1/4 by `t_to_phase_vector`.
* **C93** logjit conversion
  * `C93_runtime_violated`: C93 is false: if a `logjit` key is followed by any other key, `initialize_posterior` raises `RuntimeError` ("OrderedDict mutated during iteration").
* **C95** Stored samples form one chain
  * `C95_restart_violated`: C95 is false: with moves that add 1 to every coordinate, two rounds of two steps from 0 store 1, 1, 2, 2 instead of 1, 2, 3, 4.
* **C96** A run returns its own samples
  * `C96_stale_violated`: C96 is false: with so few steps that no round is made, a second run in the same process returns, without error and under its own column names, the table an earlier run has left in the global `statevars`.
* **C98** Returned samples are post-burn-in
  * `C98_burn_violated`: C98 is false: when burn-in ends in the last round, the table consists of burn-in samples although burn-in is reported as complete.
* **C99** Starting scales follow the current values
  * `C99_stale_violated`: C99 is false: the first run stores its scales in the parameter vector, so a second run, made after the value has changed, uses the scale of the old value instead of that of the new one.
* **C100** Model comparison leaves the caller's posterior alone
  * `C100_violated`: C100 is false for the plain fit and for the 'gp' comparison: there the caller's posterior ends up with the optimiser's values in every free row.
* **C102** Samples and posterior belong together
  * `C102_refit_violated`: C102 is false after fitting again: tables and derived parameters then combine the samples of the MCMC run with the new fit.
* **C103** Derived parameters belong to the samples
  * `C103_resample_violated`: C103 is false after sampling again: tables and reports join derived parameters of older samples.
* **C104** Tables do not depend on each other
  * `C104_order_violated`: C104 is false: the same two tables in another order give an empty table of derived parameters.
* **C105** Later steps find what they need
  * `C105_refit_violated`: C105 is false after fitting again: the table of parameters cannot be made from the MCMC run, and a report neither.
* **C108** An existing output directory can be used
  * `C108_dynesty_violated`: C108: dynesty never samples into an output directory that exists but has no `sampler.save`: `FileExistsError`, even with `overwrite=True` or `proceed=True`.
* **C110** Rows of the parameter table show their own parameter
  * `C110_own_violated`: C110 is false: whatever the two instruments `s` and `s1` are called, the row made for the offset of `s` shows the numbers and the label of the offset of `s1`, though everything needed for the right row is there.
  * `C110_table_violated`: The whole table for two such instruments: `gamma_j1` and `jit_j1` appear twice, `gamma_j` and `jit_j` not at all.
* **C111** Every extra parameter has one row
  * `C111_twice_violated`: C111 is false: the offset of every instrument whose name contains `jit`, `dvdt` or `curv` is listed twice.
  * `C111_dropped_violated`: C111 is false: one instrument whose name contains `curv` makes the row of the curvature itself disappear (and likewise for `dvdt`), although the curvature is a parameter of the model.
  * `C111_space_violated`: C111 is false: an instrument whose name contains white space has no rows for its offset and jitter.
* **C112** The parameter table lists all fitted parameters
  * `C112_basis_violated`: C112 is false for every fit: whatever the fitted basis, the report converts the parameters, and the rows of its table headed as the parameters of the fit are the rows of the orbital parameters once more.
  * `C112_secosw_violated`: C112 is false for a fit in `per tc secosw sesinw k`: `secosw` and `sesinw` of no planet have a row for planets, though their samples, maxima and labels may all be there.
  * `C112_tc_violated`: C112 is false for a fit in `per tp e w k`: the maxima are kept for the parameters of the fit only (`maxKeys`), so the time of conjunction of no planet has a row, though the report has samples and a label of it.
  * `C112_decorr_violated`: C112 is false for decorrelation coefficients: a name that contains none of `gamma`, `dvdt`, `curv`, `jit` and does not begin with `gp_` is not in the list of other parameters, even if it is an extra parameter of the likelihood.
* **C113** Units in the parameter table
  * `C113_prefix_violated`: C113 is false: with instruments `h` and `hires`, in this order, the offset and jitter of `hires` have no unit.
  * `C113_single_violated`: C113 is false for a data set with one instrument whose name has more than one character: the offset has no unit, because the loop over the instruments runs over the characters of the only name.
* **C114** Every derived parameter has one row
  * `C114_ten_violated`: C114 is false for ten planets: in whatever order Python iterates over the set, the mass of the first planet has at least two rows, if the first and the tenth planet have masses.
  * `C114_musini_violated`: C114 in full is false also with few planets: the mass ratio, which `derive` saves for every planet (C125), has no row in the table of derived parameters.
* **C115** Units of derived masses
  * `C115_sun_violated`: C115 is false for large masses: no derived mass is ever shown in solar masses, however large.
  * `C115_again_violated`: C115 is false for a second table made from the same report: a mass with a median between 100 and 31746 Earth masses was converted to Jupiter masses by the first, and the second shows these numbers in Earth masses.
* **C116** The table of velocities is complete
  * `C116_note_violated`: C116 is false for every shorter data set: the note claims more rows than there are observations.
  * `C116_braces_violated`: C116 is false for every name with two or more underscores: there are more opening than closing braces, so the table is not valid LaTeX.
* **C117** Every observation is used once
  * `C117_unlisted_violated`: C117 in full is false: whenever the data contain an instrument that is not listed in `instnames`, its observations are left out without a message: the posterior is built (if it is built) from fewer observations than the file has.
* **C120** GPs for some of the instruments
  * `C120_subset_violated`: C120 is false: if `hnames` is defined but has no entry for a listed instrument, this instrument is not given a likelihood without GP; `KeyError` is raised instead, although everything else about the setup file is right.
* **C121** Decorrelation applies to every instrument
  * `C121_gp_violated`: C121 is false for GPs: if `hnames` is defined, the option `--decorr` has no effect: the posterior is the same with and without it.
* **C122** Samples are converted row by row
  * `C122_hyperbolic_violated`: C122 in full is false: in every basis with a time of conjunction, a sample with eccentricity above 1 has the time of conjunction as time of periastron if it is converted as a set of parameters, and nan if it is converted in a table.
* **C124** Derived parameters depend on their own row
  * `C124_neighbour_violated`: C124 in full is false: whether the formula for light planets is used is decided for all rows together. Whatever root finder is used, provided that it returns roots: two tables of two samples, the first rows of which are equal, give different masses in the first row (with astropy's constants, for an amplitude of 100 m/s in the first row, and 100 m/s or 30 km/s in the second).
* **C126** Derived parameters come from the posterior
  * `C126_beyond_violated`: C126 in full is false: for a planet of the setup file that the posterior does not have, and so was never fitted, the derived parameters are computed from the values in the setup file.
* **C127** Derived densities are densities
  * `C127_negative_violated`: C127 in full is false: radii are drawn from a normal distribution and, unlike the stellar masses, not made positive: in every row with a negative radius the density of a planet of positive mass is negative.
* **C128** Reported state of the posterior
  * `C128_hyperbolic_violated`: C128 is false for a sample with an eccentricity above 1 (nothing keeps the sampler from them without a prior) in the bases without a time of periastron: the summarised table has nan where the conversion of the parameters of that sample gives the time of conjunction.
* **C130** Fixed parameters are reported unchanged
  * `C130_analytic_violated`: C130 in full is false: an offset that is marginalised analytically counts as fixed. It is reported with uncertainty zero, whatever the samples and the data; its median is the value that happened to be in the vector before, and its maximum another number, computed by the last evaluation of the likelihood.
* **C132** Reported angles describe the samples
  * `C132_wrap_violated`: C132, "the reported argument of periastron and its uncertainty describe the samples", is false: two samples whose eccentricity vectors `(a, δ)` and `(a, -δ)` with `a < 0` differ as little as one likes have arguments of periastron near `π` and `-π`; the reported uncertainty is about 2 radians and the reported median points in the opposite direction.
* **C133** Every parameter is reported
  * `C133_hyperbolic_violated`: C133 in full is false: if in a basis with a time of conjunction every sample of a planet has an eccentricity above 1, the post-processing raises, so that nothing is reported for any parameter.
* **C134** Binned points show their bins
  * `C134_left_violated`: C134 in full is false: parts whose centre is zero or negative are left out, however many points they have; if no point is positive, nothing is returned.
* **C135** Instruments can be told apart
  * `C135_tenth_violated`: C135 fails for ten instruments without formats: `default_colors[9]` raises `IndexError` and nothing of the panel is finished.
  * `C135_alias_violated`: C135 fails for two suffixes with one default format: the points of `j` and of `hires` are drawn with the same marker, colour and label.
  * `C135_default_violated`: C135 fails for the third instrument without a format: it has the colour of PFS.
* **C136** Panels agree on formats
  * `C136_second_violated`: C136 fails for a format without colour and an unknown instrument after it: `x` is purple in the first panel and orange, the colour of `a1`, in the second, and the caller's dictionary has a new key.
* **C137** One panel for every planet
  * `C137_labels_violated`: C137 fails without letters: with at least one planet, `plot_multipanel(letter_labels=False)` raises `UnboundLocalError` at the first phase panel, because `pltletter` is only assigned when there are letters.
  * `C137_gp_nophase_violated`: C137 fails for the GP figure with all likelihoods in one panel: `nophase=True` changes nothing, the phase panels are drawn; and no figure is returned.
  * `C137_gp_empty_violated`: C137 fails for the GP figure without planets and with one panel per likelihood: the grid of phase panels has no rows, and `GridSpec` raises `ValueError`.
  * `C137_again_violated`: C137 fails for a second figure of the same object: the list of axes that is returned has those of the first figure in front.
* **C138** The GP figure shows the measured velocities
  * `C138_again_violated`: C138 fails for a second drawing of the same object, with neither option: `orbit_model4data` is `self.rvmod` itself, which now has the GP mean in it, so that every velocity is shown with the GP mean added once more.
  * `C138_later_violated`: C138 fails with one panel per likelihood: the panel of `x` shows the velocity 20 of `b` as 16, without its GP mean 4; the panel of `b` shows it as 20.
* **C139** GP bands have the colour of their data
  * `C139_order_violated`: C139 fails for unknown instruments in one panel: bands take colours in the order of the likelihoods, points in the order of the names. The band of `x` is orange, as the points of `b`.
  * `C139_separate_violated`: C139 fails for unknown instruments with one panel per likelihood: the count of colours is not kept, so both bands are orange, and the points of `x` are purple in both panels.
  * `C139_key_violated`: C139 fails for a format without colour: where `mtelplot` takes the next colour of the list, the band raises `KeyError`.
* **C140** The RV figure shows the measured velocities
  * `C140_trend_violated`: C140 fails for a posterior without `dvdt` or `curv`, which the model itself accepts (they count as zero): no figure is made, `KeyError`.
* **C141** Phase panels show one planet
  * `C141_negative_violated`: C141 in full is false for negative periods (/repo/radvel/kepler.py 42-43 replaces them by 1e-4, /repo/radvel/utils.py 367-368 folds with them): for every eccentric orbit whose velocity is not constant there is a negative period with which two times of the same phase have different velocities, so that points of the panel at one phase belong to different heights of the curve.
* **C143** The time axis tells the time
  * `C143_reduced_violated`: C143 in full is false for a chosen range and times given as Julian date minus the epoch: the observations are drawn at their times, but the whole curve is drawn beyond the right end of the axis, since the epoch is added to its times and never subtracted.
  * `C143_epoch_violated`: C143 in full is false for a chosen range with `epoch=0`, which the figure itself replaces by 2450000: the whole curve is drawn beyond the left end of the axis, since its times were chosen before the replacement.
  * `C143_label_violated`: C143 in full is false for an epoch that is not a whole number, such as 2450000.5: the axis is labelled with another number than the one that is subtracted.
* **C145** Commands find their arguments
  * `C145_alone_violated`: C145 violated: `radvel` without a subcommand is accepted by the parser and then ends in an AttributeError, because only the subcommands define `outputdir` (/repo/radvel/cli.py 232).
* **C146** Accepted requests are understood
  * `C146_ic_violated`: C146 violated: `radvel ic` without `-t` and `--simple` always fails an assertion: the default of `-t` is the text `trend` and not a list (/repo/radvel/cli.py 172), so its letters are taken for comparisons.
  * `C146_type_violated`: C146 violated: `radvel table` and `radvel plot` without `-t` end in a TypeError: there is no default and the option is not required (/repo/radvel/cli.py 50, 201).
* **C147** Switches mean what they say
  * `C147_serial_violated`: C147 violated: `--serial` with any value but the empty one means serial, `--serial False` too: `type=bool` (/repo/radvel/cli.py 114) is `bool(text)`.
* **C148** Commands have an output directory of their own
  * `C148_clash_violated`: C148 violated: two setup files get the same default output directory and the same names of files if their names agree up to the first dot, or if they lie in different directories (/repo/radvel/cli.py 235), so that one run overwrites the results of the other.
  * `C148_setup_violated`: C148 violated: without `-s` and `-d` the command ends in a TypeError from `os.path.basename(None)` instead of a message of the parser (/repo/radvel/cli.py 31-34, 235).
* **C149** Every option has an effect
  * `C149_unread_violated`: C149 violated: `--header` of `radvel table` has no effect on anything the command reads, nor has `--decorr` of `table`, `derive` and `report`: a command line with them anywhere gives the same attributes (/repo/radvel/cli.py 35-40, 205-207; /repo/radvel/driver.py 462-537, 566-757).
* **C150** Labels of instrument parameters name the instrument
  * `C150_celerite_violated`: C150 is false for the hyperparameters `B`, `C` and `L` of the celerite kernel: whatever the instrument, the label closes a brace that was never opened.
  * `C150_digit_violated`: C150 is false for instruments whose name ends in a digit (`harps2`): their hyperparameters are taken for a planet's. Without letters of its own the label is the bare name with the letter of that planet ...
  * `C150_letters_violated`: ... and with letters for the planets there is no label at all unless a planet has that number.
  * `C150_logjit_violated`: C150 is false for `logjit`: `texdict` has a symbol for it, but the entry for `jit_` overwrites it, whatever the instrument.
* **C151** The table of priors describes every prior
  * `C151_letters_violated`: C151 is false with letters of the user's: the table of priors uses the default letters (`Parameters(9)`), all others the user's.
  * `C151_ten_violated`: C151 is false from the tenth planet on: an eccentricity limit for such a planet, and there is no table of priors (and so no report).
  * `C151_numerical_violated`: C151 is false for a numerical prior on an empty list of parameters, or on a list that names a parameter twice: there is no table of priors.
  * `C151_baseline_violated`: C151 is false for `InformativeBaselinePrior`: it has no `__str__`, its row shows the name of the parameter in the program and no label.
  * `C151_line_violated`: C151 is false for the lines of the document: the program ends every row and the template ends it again, so that an empty row follows every prior.
* **C152** The report shows the figures that were made
  * `C152_stale_violated`: C152 fails for samples made after drawing: the figures stay as they are, and nothing in the report tells that they show another run than the tables. For every history that ends in drawing a corner plot.
  * `C152_renamed_violated`: C152 fails with `saveplot`: an RV figure saved in the output directory under a name of the user's is not in the report.
  * `C152_elsewhere_violated`: C152 fails with `saveplot`: an RV figure saved in another directory makes the report impossible.
  * `C152_old_violated`: C152 fails with `saveplot`: if a new RV figure is saved in another directory under the usual name, the report shows the old one.
  * `C152_caption_violated`: C152 fails with `saveplot`: an RV figure saved under the name of the corner plot is shown as the posterior distributions.
  * `C152_unused_violated`: C152 fails when a figure that the report does not show has been removed: there is no report. Here an RV figure and the plot of autocorrelation times were drawn, and the latter was removed.
* **C153** What is typed reaches the sampler
  * `C153_thin_violated`: C153 fails for `thin`: without the option every tenth sample is kept, while `radvel.mcmc` keeps every sample.
  * `C153_help_violated`: C153 fails for the help: `--minAfactor` and `--maxArchange` are documented with defaults 50 and 0.07; the real ones are 40 and 0.03.
* **C155** The posterior of a setup file with Gaussian processes
  * `C155_linear_violated`: C155 fails for gammas that are to be calculated analytically (`linear=True, vary=False`, /repo/radvel/model.py 45-46 and likelihood.py 386-415): GP likelihoods use the stored value instead (`_resids`, /repo/radvel/likelihood.py 462-467). In every reachable state of every GP likelihood whose gamma is such a parameter, if the residuals vanish for its stored value, then any other stored value gives another likelihood. A likelihood from which gamma is eliminated would not depend on it.
* **C156** Printing shows the fit and changes nothing
  * `C156_edit_violated`: C156 is violated for values that were edited in the dictionary: printing sets them back. If the value of a parameter is changed with `params[k].value = v` and the vector is rebuilt from the dictionary, the vector has the new value; if the likelihood is printed in between, the table shows the old value, the dictionary has the old value again and so has the rebuilt vector.
  * `C156_flag_violated`: C156 is violated for flags that were edited in the dictionary: printing shows the new flag, but what is fitted is still decided by the vector, which has the old one until it is rebuilt.
  * `C156_glued_violated`: C156 is violated in the columns for an uncertainty whose text has ten characters or more (`1.23456e-05`): nothing separates it from the value.
* **C158** The progress display
  * `C158_end_violated`: C158 is false at the end of runs: if the number of steps is `k` times `checkinterval - 1` and all `k` rounds are made, more steps are counted than were asked for (every round makes `checkinterval`); with a `checkinterval` of at most 100 the bar is longer than its frame. With the default of 50 and 10000 steps the last display says 102%.
  * `C158_full_violated`: C158 is false for a full bar: it is shown before everything is done, for the last hundredth of a run.
  * `C158_continued_violated`: C158 is false for continued runs: the steps of the saved run are counted, but the total is that of the new run alone. If the saved run had as many steps as are now asked for, the first display already exceeds the total.
* **C159** Loading gives back the saved posterior
  * `C159_missing_violated`: C159 is violated for dictionaries that lack a parameter of their basis: loading adds it, without a value (`dflt` is Python's `None`) and free. The loop at the end of `load` that should remove what is undefined compares the `Parameter` object itself with `None`, so it never removes anything.
  * `C159_none_violated`: C159 is violated for dictionaries with an entry that is `None`: unless it is the last entry the loop of `load` raises `RuntimeError`, since the dictionary changes while it is iterated over.
* **C160** The plot of autocorrelation times
  * `C160_empty_violated`: C160 is violated for runs without a check after burn-in: the table has no rows, and the plot raises `KeyError`.
  * `C160_line_violated`: C160 is violated for the line: while no check is near the criterion, the line is outside the axes everywhere.
  * `C160_negative_violated`: C160 is violated for autocorrelation times that are not positive (`integrated_time` returns such for anticorrelated samples): the points can be below the line although the criterion was not met.
* **C161** Corner and trend plots show the free parameters, and every planet has one letter
  * `C161_letters_violated`: C161 is violated for the letters if the setup file defines `planet_letters` but does not pass them to `Parameters` (as /repo/example_planets/epic203771098.py 16, 24 does): the planet has one letter in the derived plot and another one in the corner plot and the tables.
  * `C161_eleven_violated`: C161 is violated for more than ten planets without letters: the derived plot raises `KeyError`, whatever the samples are.
  * `C161_flag_violated`: C161 is violated if a flag of the dictionary is set after sampling: the corner plot raises `KeyError`, and all figures drawn later in the same process have the font size 12.
  * `C161_font_violated`: C161 is violated whenever drawing fails (`corner` raises `ValueError` for a parameter whose samples are all equal): the font size stays 12.
* **C162** The transform of a numerical prior is the quantile function of its sample
  * `C162_lost_violated`: **Finding.** The lowest bin collapses to a point: every `u` up to the fraction of the sample in the first bin, which is not zero, is transformed to the middle of that bin.
  * `C162_shift_violated`: **Finding.** Cumulative fractions belong to the right edges of the bins but are paired with their middles: at every inner edge `e` followed by a bin that is not empty, the fraction of the sample below `e` is transformed to `e` less half a bin, so that draws are biased low by half a bin.
  * `C162_quantile_violated`: **Finding.** So the transform is not the quantile of the sample: with the sample 0, 1, 2, 4 and two bins, every small enough `u` is transformed to 1, although a quarter of the sample lies below 1.
  * `C162_several_violated`: C162 is false for several parameters: the transform is a single number made from the values of all of them. Whatever value belongs to whatever parameter, and however they are correlated, the result is the same.
* **C163** Rows of the parameter table show their numbers
  * `C163_fixed_violated`: C163 is false for small fixed values: trends that are held at numbers below 0.00005 (in m/s/d, or curvatures) are all shown as `0`.
  * `C163_sign_violated`: C163 is false for the sign of fixed parameters: it is enough that one of the two distances is `0.9e-12` or less. Then both errors and the maximum-likelihood value disappear from the row, however large the other distance is.
  * `C163_angle_violated`: C163 is false for angles near 180 degrees: the samples are moved, but the maximum-likelihood value is not. Four samples in nearly the same direction, one of which is the best fit: the row shows a median and a best fit that differ by more than 5.9 radians, with errors below 0.3.
* **C164** Masses in the phase panels belong to the orbits drawn
  * `C164_resample_violated`: C164 is false after sampling again: an MCMC run keeps the masses of the posterior it started from, so the figure shows the orbits of the new run with the masses of an older one, until parameters are derived again.
  * `C164_refit_violated`: C164 is false after fitting again: parameters derived then come from the samples of the older MCMC run, while the orbits are those of the new fit.
* **C165** Phase panels state the reported orbit and mass
  * `C165_small_violated`: C165 is violated by small numbers: without sampling, and for fixed parameters, a semi-amplitude or eccentricity up to 0.005 is shown as `0.00`, although it is not zero.
  * `C165_letters_violated`: C165 is violated by letters of one's own: period, semi-amplitude and eccentricity carry the letter that the parameters were given, the mass in the same panel the default letter.
  * `C165_nan_violated`: C165 is violated by a single nan in the samples of the mass: the column of derived quantiles exists, but the label is not among those of the plot, and the whole figure fails with `IndexError`.
  * `C165_eleven_violated`: C165 is violated for eleven planets or more: after `derive`, the figure fails with `KeyError`.
* **C166** Converted parameters can be edited on their own
  * `C166_shared_violated`: C166 is false for the parameters that are not orbital elements: `gamma`, `jit`, `dvdt`, `curv` and all others of the input are the same objects in the result. Whatever is written to one of them in the result is also in the input, and whatever is written to it in the input is also in the result: freezing `dvdt` in a converted set freezes it in the original, and a fit made with one set moves the offsets of the other. This holds for all bases, values and numbers of planets.
* **C167** The Kepler solver finishes
  * `C167_c_violated`: C167 (C) does not hold near 1: for the eccentricity 0.9999 there is a mean anomaly between 0 and 0.01 for which the C solver does not return a number. The first guess is the mean anomaly, the sign of its sine having been converted to an integer; the first correction overshoots by more than a turn, and on the way there the second one divides by zero. `rv_drive` replaces eccentricities above 0.99, so only direct callers are concerned.
* **C171** The samples of the report are the samples
  * `C171_hyperbolic_violated`: C171 in full is false: a sample with eccentricity above 1 has no time of conjunction in the report's samples, in any basis, even if the time of conjunction was sampled (and in the latter case no time of periastron).
  * `C171_median_violated`: C171 in full is false, for the number in the table: the time of conjunction was sampled at 10, 20 and 30, and the median of the column from which the report takes the median is 10, because the other two samples have an eccentricity above 1.
* **C172** from_synth converts tables like parameters
  * `C172_attribute_violated`: C172 in full is false: samples converted to `per tp e w k` cannot be converted further to any basis other than three, because the branches ask the table for an attribute that it does not have: `AttributeError`.
  * `C172_keep_violated`: C172 in full is false: `keep=False` raises for every table and every new basis but two, because the names to be removed are looked up among the rows.
  * `C172_any_violated`: C172 in full is false: `to_any_basis` raises for every table of samples and every new basis but two, among them the basis the samples are in.
* **C175** Vertical axes and legend RMS of the RV figure
  * `C175_hidden_violated`: C175 fails: whatever `yscale_sigma` is, there is a figure in which the residuals panel has proper limits and none of the residuals is inside; nor does the RMS in the legend tell.
  * `C175_legend_violated`: C175 fails: an instrument with one observation has no RMS in the legend, although its residual is not zero; and alone in a figure it leaves the vertical axis without extent.
* **C176** Likelihood and predictions with the celerite kernel
  * `C176_jitter_violated`: C176 fails for a negative jitter, which the likelihood squares and so accepts: the kernel of the predictions has a nan.
  * `C176_C_violated`: C176 fails for `C` below -1, which nothing excludes: with `B = 1`, `C = -3/2` the matrix of two precise observations is not positive definite, and `logprob` is `-inf`.
* **C177** Stopping a run while it saves
  * `C177_lost_violated`: C177 is false inside the save of an ensemble: in every history, stopping between any two of its eighteen operations leaves a file from which a run with the same number of ensembles cannot be continued, neither from this round nor from the one before.
  * `C177_mixed_violated`: C177 is false between two ensembles: when burn-in ended in the round before, so that every sample of its file is a burn-in sample, a run stopped there can be continued, but then counts as being past its burn-in although the ensembles after the stop still hold all their burn-in samples.
* **C178** Spellings of a command line
  * `C178_across_violated`: C178 violated: the same words need not mean the same to all subcommands, although the option is common to them: `--s file` names the setup file for `radvel fit` and is refused by all other subcommands, because each of them has another option that begins with `--s` (/repo/radvel/cli.py 31, 64-65, 114, 117, 130-131, 162-163, 191, 212, 225).
  * `C178_negative_violated`: C178 violated: a count may be negative: `--nensembles -3`, `--nwalkers -3`, `--thin -3`, `--minsteps -3` and `--minTz -3` are accepted by `radvel mcmc` and handed on as they are; nothing checks them (/repo/radvel/cli.py 82-113).
* **C179** Priors with meaningless arguments are refused
  * `C179_jeffreys_violated`: C179 is false for `Jeffreys` (/repo/radvel/prior.py 328-340): every pair of bounds that is out of order, equal, or negative below is accepted. With a negative lower bound the prior is nan at every value within its bounds, with equal bounds it is infinite at the only value within them, with bounds out of order no value is within them.
  * `C179_modJeffreys_violated`: C179 is false for `ModifiedJeffreys` (/repo/radvel/prior.py 381-396): bounds out of order or equal are accepted.
  * `C179_hardBounds_violated`: C179 is false for `HardBounds` (/repo/radvel/prior.py 206-231): bounds out of order or equal are accepted; then no value has a density, and `transform` still gives values.
  * `C179_gaussian_violated`: C179 is false for `Gaussian` (/repo/radvel/prior.py 34-44): any width is accepted. With width 0 the prior is nan everywhere. With a negative width the log density is that of the width without its sign, so that MCMC runs as if nothing were wrong, while `transform` is nan everywhere, so that nested sampling draws nan.
  * `C179_ecc_violated`: C179 is false for the limits themselves (/repo/radvel/prior.py 108-113): a limit above 1 is accepted, and then an orbit that is not bound (`e = 3/2`) has a finite prior.
* **C180** A printed posterior determines its priors
  * `C180_eclipse_violated`: C180 is false for secondary eclipses (/repo/radvel/prior.py 266-270): which planet is eclipsed is not printed.
  * `C180_positive_violated`: C180 is false for positive amplitudes (/repo/radvel/prior.py 163-164): for how many planets is not printed.
  * `C180_function_violated`: C180 is false for numerical and user-defined priors (/repo/radvel/prior.py 470-474, 547-551): only the names of their parameters are printed (the text that the user gives is left to tables).
* **C181** Parameters declared circular are circular
  * `C181_width_violated`: C181 is false: a time of conjunction is declared circular whatever its prior is. With bounds half a period apart both ends are different orbits.
  * `C181_angle_violated`: C181, the converse is false as well: an argument of periastron between 0 and a full turn is circular and not declared so.
* **C183** The axis of years tells the year
  * `C183_modified_violated`: C183 in full is false for dates reduced by another number, such as the modified Julian dates `JD - 2400000.5`: with the default epoch, observations after 1995 are shown more than 4400 years before the year 0.
  * `C183_line_violated`: C183 in full is false for figures with Gaussian processes: a line is drawn whose height is the year, against the axis of the velocities. From 1900 on a vertical axis that contains all that is drawn, such as the one matplotlib chooses with `yscale_auto`, goes beyond 1899 m/s, whatever the velocities are.
* **C184** rv_drive answers with one velocity per time
  * `C184_shape_violated`: C184 in full is false: without the C extension one time gives a number, not an array of one, no times give `IndexError`; with it integer times give `ValueError`. For circular orbits all of these are answered by arrays.
* **C185** Phases in floating point
  * `C185_one_violated`: C185 in full is false: shortly before `tc` the phase is 1, not a number below 1.
* **C186** Time binning in floating point
  * `C186_endless_violated`: C186 in full is false: with a positive bin size below the last digit of the earliest time, the first of the sorted ones, the loop never ends (for Julian dates: below 10⁻¹⁰ days).
* **C188** Julian dates in floating point
  * `C188_roundtrip_violated`: C188 is false as stated: one second after noon of 1 January 2000 comes back 5 microseconds early, with 0 in the place of the second.
* **C189** Error bars of binned points in floating point
  * `C189_nan_violated`: C189 is false: five values of 1.33 (as a floating-point number) have the error bar nan, because the mean of their squares is rounded to less than the square of their mean.
* **C190** Averages of time bins in floating point
  * `C190_outside_violated`: C190 is false in full: three velocities of 7 with errors of 1 have an average that is less than 7.
* **C192** Time binning in floating point, as a whole
  * `C192_starts_violated`: C192 in full is false: if the sum of the first time and the bin size is rounded down, an observation at the rounded sum gets a bin of its own, although it is less than a bin size after the first one; without rounding the two share a bin.
  * `C192_endless_violated`: C192 in full is false: with a positive bin size below the last digit of the earliest time the call never returns.
* **C193** Binning by telescope in floating point
  * `C193_labels_violated`: C193 in full is false: two observations of one telescope, the second at the rounded sum of the first time and the bin size, have two labels with rounding and one without, if the sum was rounded down (such numbers: see `C192_starts_violated`).
* **C195** Decimals in floating point
  * `C195_nearest_violated`: C195 in full is false: 2.675, which as a floating-point number is nearer to 2.67 than to 2.68, becomes 2.68.

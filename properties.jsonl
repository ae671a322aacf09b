{"id": "C01", "title": "Every parameter owns one vector row", "statement": "After building Parameters in a five-parameter basis, optionally adding trend, gamma/jit/gp keys, creating a model and then any sequence of likelihoods, every parameter key has an index inside the vector, two different keys never share an index, and the row holds exactly that parameter's value, vary flag, mcmcscale (None stored as 0) and linear flag.", "quantifier": "for every number of planets, every five-parameter basis, every list of instrument keys, every subset of trend keys, every sequence of likelihood constructions", "why_tests_cant": "A test fixes one planet count and one instrument list; a clash depends on the combination.", "anchors": ["radvel/model.py:Vector.init_index_dict", "radvel/model.py:Vector.dict_to_vector", "radvel/model.py:Parameters.__init__", "radvel/likelihood.py:Likelihood.__init__"]}
{"id": "C02", "title": "Dictionary to vector to dictionary is the identity", "statement": "Calling dict_to_vector and then vector_to_dict leaves the value of every parameter unchanged, and vector_to_dict after an arbitrary vector write gives each parameter exactly the value of its own row and no other.", "quantifier": "for every well-formed parameter set and all parameter values", "why_tests_cant": "Requires injectivity of the index map for all planet counts and key lists.", "anchors": ["radvel/model.py:Vector.dict_to_vector", "radvel/model.py:Vector.vector_to_dict"]}
{"id": "C03", "title": "Vector names label the right rows", "statement": "vector.names[i] is the key whose index is i, so name_vary_params lists the free parameters in the order in which get_vary_params lists their values.", "quantifier": "for every well-formed parameter set and every vary pattern; including parameter sets with user-defined keys", "why_tests_cant": "Off-by-one shifts appear only when a row has no name, which depends on the whole key set.", "anchors": ["radvel/model.py:Vector.vector_names", "radvel/likelihood.py:Likelihood.name_vary_params"]}
{"id": "C04", "title": "Set/get round trip of free parameters", "statement": "set_vary_params(x) with as many values as free parameters succeeds, get_vary_params() then returns x, no fixed parameter and no flag changes, and with fast=False the params dictionary agrees with the vector.", "quantifier": "for every state, every vary pattern and every array of matching length", "why_tests_cant": "The vary pattern and the vector size are unbounded.", "anchors": ["radvel/likelihood.py:Likelihood.set_vary_params", "radvel/likelihood.py:Likelihood.get_vary_params"]}
{"id": "C05", "title": "Arrays of the wrong length are rejected and leave no trace", "statement": "set_vary_params with an array whose length differs from the number of free parameters raises, and the parameter values are the same as before the call.", "quantifier": "for every state and every array of non-matching length", "why_tests_cant": "Needs all lengths and all states; the write happens before the check.", "anchors": ["radvel/likelihood.py:Likelihood.set_vary_params"]}
{"id": "C06", "title": "Free parameters follow the current vary flags", "statement": "set_vary_params, get_vary_params, name_vary_params and logprob_array act on the parameters whose vary flag is currently set, after any history of flag changes and calls.", "quantifier": "for every history of flag edits and calls", "why_tests_cant": "The list of free rows is cached; staleness needs a particular history.", "anchors": ["radvel/likelihood.py:Likelihood.set_vary_params", "radvel/likelihood.py:Likelihood.list_vary_params", "radvel/posterior.py:Posterior.__init__"]}
{"id": "C07", "title": "Pickle and deepcopy preserve Parameters", "statement": "Pickling (or deep-copying) a Parameters object and restoring it yields an object with the same number of planets, basis, letters and the same key to Parameter mapping; if the basis keys come first in canonical order the key order is preserved as well.", "quantifier": "for every Parameters object that contains the keys of its own basis", "why_tests_cant": "Arbitrary key sets and deletions.", "anchors": ["radvel/model.py:Parameters.__reduce__"]}
{"id": "C08", "title": "Likelihood construction accepts predeclared extra parameters", "statement": "Constructing a likelihood whose extra or decorrelation parameters were already declared by the user succeeds and gives each of them its own row.", "quantifier": "for every parameter set and every list of extra keys, declared before or after the model was created", "why_tests_cant": "Failure depends on which keys were declared before the vector was created.", "anchors": ["radvel/likelihood.py:Likelihood.__init__", "radvel/model.py:Vector.dict_to_vector"]}
{"id": "C09", "title": "Parameter labels identify planet and parameter", "statement": "tex_labels maps every orbital key to a label carrying that parameter's symbol and that planet's letter, and two different keys never get the same label.", "quantifier": "for every number of planets and every basis", "why_tests_cant": "Tests use a handful of planets.", "anchors": ["radvel/model.py:Parameters.tex_labels", "radvel/model.py:Parameters._planet_texlabel"]}
{"id": "C10", "title": "Leaving the synth basis and coming back is lossless", "statement": "Converting physical parameters to any supported basis and back to the synth basis returns the same period, time of periastron, eccentricity, argument of periastron (as an angle, when e>0) and semi-amplitude for every planet.", "quantifier": "for every supported basis, every number of planets, every per>0, 0<=e<1, every real w, every k>0", "why_tests_cant": "Continuous five-dimensional domain times ten bases; quadrant and branch errors hide in small regions.", "anchors": ["radvel/basis.py:Basis.to_synth", "radvel/basis.py:Basis.from_synth"]}
{"id": "C11", "title": "Fitting-basis parameters survive a round trip through synth", "statement": "Converting parameters from a basis to synth and back to the same basis returns exactly the original values, also for unphysical eccentricities (e>=1), as long as se>=0 where se is the fitted quantity.", "quantifier": "for every supported basis and every real parameter vector", "why_tests_cant": "Continuous domain; samplers do wander into unphysical values.", "anchors": ["radvel/basis.py:Basis.to_synth", "radvel/basis.py:Basis.from_synth", "radvel/orbit.py"]}
{"id": "C12", "title": "Vector and dictionary conversions agree", "statement": "v_to_synth applied to the vector of a parameter set gives, row by row, the values that to_synth gives for the same planet's keys; the same holds for v_from_synth against from_synth.", "quantifier": "for every supported five-parameter basis, every planet count and all values", "why_tests_cant": "Two independent implementations of ten conversions.", "anchors": ["radvel/basis.py:Basis.v_to_synth", "radvel/basis.py:Basis.to_synth", "radvel/basis.py:Basis.v_from_synth", "radvel/basis.py:Basis.from_synth"]}
{"id": "C13", "title": "Changing basis does not change the predicted curve", "statement": "A model built from params.basis.to_any_basis(params, b) predicts the same velocities as a model built from params.", "quantifier": "for every source basis, every target basis b, every planet count, all values and all times", "why_tests_cant": "Depends on leftover keys and their dictionary order after the conversion, for each pair of bases.", "anchors": ["radvel/basis.py:Basis.to_any_basis", "radvel/basis.py:Basis.from_synth", "radvel/basis.py:_copy_params", "radvel/model.py:Vector.dict_to_vector"]}
{"id": "C14", "title": "Basis conversion does not alter its input", "statement": "to_synth, from_synth and to_any_basis leave the input's keys, values and basis name unchanged.", "quantifier": "for every input and every target basis", "why_tests_cant": "Aliasing of the Basis object is invisible in the returned value.", "anchors": ["radvel/basis.py:Basis.from_synth", "radvel/basis.py:Basis.to_synth", "radvel/basis.py:_copy_params"]}
{"id": "C15", "title": "Transit time and periastron time are inverse", "statement": "timeperi_to_timetrans and timetrans_to_timeperi are mutually inverse for the same period, eccentricity and argument of periastron.", "quantifier": "for all real times, periods, arguments and all eccentricities > -1, including e >= 1", "why_tests_cant": "Continuous domain.", "anchors": ["radvel/orbit.py:timetrans_to_timeperi", "radvel/orbit.py:timeperi_to_timetrans"]}
{"id": "C16", "title": "The returned transit time is an inferior conjunction", "statement": "At the time returned by timeperi_to_timetrans the exact Keplerian true anomaly plus the argument of periastron equals pi/2 modulo 2 pi, and the planet's model velocity there equals k*e*cos(w).", "quantifier": "for all tp, per != 0, 0<=e<1 and every w away from -pi/2 modulo 2 pi (where the code's tangent has its pole)", "why_tests_cant": "A statement about the solution of a transcendental equation.", "anchors": ["radvel/orbit.py:timeperi_to_timetrans", "radvel/kepler.py:rv_drive"]}
{"id": "C17", "title": "The secondary-eclipse time is the next superior conjunction after periastron", "statement": "timeperi_to_timetrans(secondary=True) returns a time at which true anomaly plus argument of periastron equals 3 pi/2 modulo 2 pi, and it lies between tp and tp+per.", "quantifier": "for all tp, per>0, 0<=e<1, w", "why_tests_cant": "The wrap-around branch is wrong only for part of the angles.", "anchors": ["radvel/orbit.py:timeperi_to_timetrans"]}
{"id": "C18", "title": "Kepler solver postcondition", "statement": "Whenever kepler(M, e) returns, every returned E satisfies |E - e sin E - M| <= 1e-12; the C solver either does the same or terminates the process.", "quantifier": "for all arrays of M and e and all numbers of iterations", "why_tests_cant": "The claim is about every input array and every iteration count.", "anchors": ["radvel/kepler.py:kepler", "src/kepler.c:kepler", "src/kepler.c:kepler_array"]}
{"id": "C19", "title": "Kepler's equation determines the answer", "statement": "For 0<=e<1 every M has exactly one eccentric anomaly; any value the solver may return is within 1e-12/(1-e) of it, so the C and the NumPy solvers agree to 2e-12/(1-e) whatever their starting guesses.", "quantifier": "for all real M and all 0<=e<1", "why_tests_cant": "Existence, uniqueness and an error bound over a continuum.", "anchors": ["radvel/kepler.py:kepler", "src/kepler.c:kepler"]}
{"id": "C20", "title": "The array solver treats every epoch independently", "statement": "The value kepler returns for one element of the array depends only on that element's M and e: solving an array gives the same as solving each element alone.", "quantifier": "for all arrays and all numbers of iterations", "why_tests_cant": "Masking errors show only when elements converge at different iterations.", "anchors": ["radvel/kepler.py:kepler"]}
{"id": "C21", "title": "C and NumPy velocity formulas coincide", "statement": "For the same eccentric anomaly the C velocity expression equals k*(cos(nu+w)+e*cos w) with nu the true anomaly.", "quantifier": "for all real inputs with -1<e<1", "why_tests_cant": "Algebraic identity over a continuum.", "anchors": ["src/kepler.c:rv_drive", "radvel/kepler.py:rv_drive"]}
{"id": "C22", "title": "Circular shortcut agrees with the general formula", "statement": "The e==0 branch of rv_drive gives exactly the value the general formula gives at e=0 with an exact anomaly, and a negative e is treated as a circular orbit.", "quantifier": "for all times, periods > 0, tp, w, k", "why_tests_cant": "Continuum; the branch is taken on one value of e only.", "anchors": ["radvel/kepler.py:rv_drive"]}
{"id": "C23", "title": "Velocities are periodic, bounded and proportional to k", "statement": "The velocity returned by rv_drive repeats after any whole number of periods, never exceeds |k|(1+e) in absolute value, is proportional to k, and its extreme values over an exact orbit are k(e cos w + 1) and k(e cos w - 1), both attained.", "quantifier": "for all t, all integers n, all elements within the code's clamps", "why_tests_cant": "Universal over times and elements.", "anchors": ["radvel/kepler.py:rv_drive", "radvel/orbit.py:true_anomaly"]}
{"id": "C24", "title": "Velocity error caused by the solver tolerance", "statement": "The velocity computed from any anomaly meeting the solver's tolerance differs from the exact Keplerian velocity by at most |k| * sqrt((1+e)/(1-e)) * 1e-12/(1-e).", "quantifier": "for all times, 0<=e<1 and every admissible solver output", "why_tests_cant": "A uniform error bound.", "anchors": ["radvel/kepler.py:rv_drive", "radvel/kepler.py:kepler", "src/kepler.c:rv_drive"]}
{"id": "C25", "title": "The RV model is the sum of its planets and trend", "statement": "model(t) equals the sum over planets of the single-planet velocities plus dvdt*(t-time_base)+curv*(t-time_base)^2; it does not depend on the numbering of the planets and a planet with zero amplitude contributes nothing.", "quantifier": "for every number of planets, all times, all values", "why_tests_cant": "Unbounded number of planets.", "anchors": ["radvel/model.py:GeneralRVModel.__call__", "radvel/model.py:_standard_rv_calc"]}
{"id": "C26", "title": "White-noise likelihood is a product of Gaussian densities", "statement": "RVLikelihood.logprob without analytic gamma is the logarithm of the product of normal densities of the residuals with variance errvel^2+jit^2; it does not depend on the sign of jit.", "quantifier": "for all data sets of any length and all parameters with positive total variance", "why_tests_cant": "All sizes and real values.", "anchors": ["radvel/likelihood.py:RVLikelihood.logprob", "radvel/likelihood.py:loglike_jitter"]}
{"id": "C27", "title": "Analytic gamma is the exact marginal likelihood", "statement": "With a linear, fixed gamma the exponential of logprob equals the integral over gamma of the ordinary likelihood, the result does not depend on the stored gamma, and the gamma written back maximises the likelihood.", "quantifier": "for all data sets of length >= 1, all parameters; with and without decorrelation terms", "why_tests_cant": "An integral identity over all data sets.", "anchors": ["radvel/likelihood.py:RVLikelihood.residuals", "radvel/likelihood.py:RVLikelihood.logprob"]}
{"id": "C28", "title": "Composite likelihood is additive", "statement": "CompositeLikelihood.logprob is the sum of the members' logprob, residuals and errorbars are the members' in order, and the value does not depend on the order of the members.", "quantifier": "for every list of likelihoods", "why_tests_cant": "Any number of members.", "anchors": ["radvel/likelihood.py:CompositeLikelihood"]}
{"id": "C29", "title": "The composite data vector holds the input velocities", "statement": "CompositeLikelihood.y, which the RV table prints, contains the velocities that were passed to the member likelihoods.", "quantifier": "for every list of likelihoods and every gamma", "why_tests_cant": "Visible only for second and later instruments with non-zero gamma.", "anchors": ["radvel/likelihood.py:CompositeLikelihood.__init__", "radvel/report.py:TexTable.tab_rv"]}
{"id": "C30", "title": "The composite knows all GP hyperparameters", "statement": "CompositeLikelihood.hnames lists the hyperparameters of every member that has a GP.", "quantifier": "for every list of likelihoods", "why_tests_cant": "Depends on which member comes first.", "anchors": ["radvel/likelihood.py:CompositeLikelihood.__init__", "radvel/fitting.py:model_comp"]}
{"id": "C31", "title": "Decorrelation subtracts each variable with its own coefficient", "statement": "The residuals contain, for each decorrelation variable, minus its own coefficient times the mean-subtracted variable, and nothing else.", "quantifier": "for every list of variables and instrument suffixes and all coefficients", "why_tests_cant": "Names are matched as substrings, so only certain name pairs fail.", "anchors": ["radvel/likelihood.py:RVLikelihood.residuals"]}
{"id": "C32", "title": "Information criteria", "statement": "bic() is -2 lnL + k ln n; aic() is the small-sample AICc, never below the plain AIC and infinite when n <= k+1; Posterior.aic() and bic() return the likelihood's values.", "quantifier": "for all numbers of data points and free parameters and every lnL", "why_tests_cant": "All sizes, including n <= k+1.", "anchors": ["radvel/likelihood.py:Likelihood.bic", "radvel/likelihood.py:Likelihood.aic", "radvel/posterior.py:Posterior.aic"]}
{"id": "C33", "title": "The order of the data does not matter", "statement": "Reordering the observations (times, velocities, errors, decorrelation vectors together) does not change logprob.", "quantifier": "for all permutations of data sets of any length, for white-noise, GP and celerite likelihoods", "why_tests_cant": "All permutations of all sizes.", "anchors": ["radvel/likelihood.py:RVLikelihood.logprob", "radvel/likelihood.py:GPLikelihood.logprob", "radvel/likelihood.py:CeleriteLikelihood.__init__"]}
{"id": "C34", "title": "logprob_array is a function of its argument", "statement": "post.logprob_array(x) depends only on x (with data, priors and vary flags fixed), not on any earlier evaluation.", "quantifier": "for every history of earlier evaluations", "why_tests_cant": "State is carried between calls (vector, analytic gamma, kernel matrix); every history must be covered.", "anchors": ["radvel/posterior.py:Posterior.logprob_array", "radvel/likelihood.py:RVLikelihood.residuals", "radvel/likelihood.py:GPLikelihood.logprob"]}
{"id": "C35", "title": "Covariance matrices are symmetric with the right diagonal", "statement": "For every kernel compute_covmatrix gives a symmetric matrix whose diagonal is amplitude^2 plus the squared error and whose off-diagonal entries are at most amplitude^2 in absolute value.", "quantifier": "for all sets of times, hyperparameters and errors", "why_tests_cant": "All sizes.", "anchors": ["radvel/gp.py:SqExpKernel.compute_covmatrix", "radvel/gp.py:PerKernel.compute_covmatrix", "radvel/gp.py:QuasiPerKernel.compute_covmatrix"]}
{"id": "C36", "title": "Covariance matrices are positive definite", "statement": "With non-zero error bars the SqExp, Per and (unclipped) QuasiPer covariance matrices are positive definite, so the Cholesky factorisation in logprob exists.", "quantifier": "for all finite sets of times and all non-zero hyperparameters", "why_tests_cant": "Quantifies over all finite point sets.", "anchors": ["radvel/gp.py:SqExpKernel", "radvel/gp.py:PerKernel", "radvel/gp.py:QuasiPerKernel", "radvel/likelihood.py:GPLikelihood.logprob"]}
{"id": "C37", "title": "compute_covmatrix stores what it returns", "statement": "After compute_covmatrix(errors) the kernel's covmatrix attribute, which logprob and predict read, is the matrix just returned, of the shape of the distance matrix.", "quantifier": "for every kernel, all hyperparameters including zeros, and every earlier state", "why_tests_cant": "Depends on a special branch and on the history.", "anchors": ["radvel/gp.py:QuasiPerKernel.compute_covmatrix", "radvel/likelihood.py:GPLikelihood.logprob"]}
{"id": "C38", "title": "A GP with zero amplitude is white noise", "statement": "GPLikelihood.logprob with gp_amp=0 equals the RVLikelihood value for the same data and jitter.", "quantifier": "for all data, jitters and remaining hyperparameters, each kernel", "why_tests_cant": "Identity over all sizes.", "anchors": ["radvel/likelihood.py:GPLikelihood.logprob", "radvel/likelihood.py:RVLikelihood.logprob", "radvel/gp.py"]}
{"id": "C39", "title": "GP prediction is consistent", "statement": "predict at the data times returns residuals minus (noise part) D K^-1 r, and the predictive variance lies between 0 and the prior variance.", "quantifier": "for all data, all prediction times and kernels with a positive semidefinite joint covariance", "why_tests_cant": "Matrix statement over all sizes.", "anchors": ["radvel/likelihood.py:GPLikelihood.predict"]}
{"id": "C40", "title": "The celerite term is the documented kernel", "statement": "The coefficients handed to celerite represent B/(2+C) exp(-d/L) (cos(2 pi d/P)+1+C); the value at d=0 is B and it bounds all others.", "quantifier": "for all hyperparameters and lags", "why_tests_cant": "Continuum.", "anchors": ["radvel/gp.py:CeleriteKernel.compute_real_and_complex_hparams"]}
{"id": "C41", "title": "One-parameter priors are proper densities", "statement": "exp of Gaussian, HardBounds, Jeffreys and ModifiedJeffreys integrates to one over the parameter and is zero outside the declared bounds.", "quantifier": "for all legal bounds and widths", "why_tests_cant": "An integral for every bound.", "anchors": ["radvel/prior.py:Gaussian", "radvel/prior.py:HardBounds", "radvel/prior.py:Jeffreys", "radvel/prior.py:ModifiedJeffreys"]}
{"id": "C42", "title": "Prior transforms are inverse CDFs", "statement": "transform(u) of HardBounds, Jeffreys and ModifiedJeffreys lies in the prior's support, increases with u, and the prior's probability below transform(u) is u.", "quantifier": "for all u in (0,1) and all legal bounds", "why_tests_cant": "Continuum.", "anchors": ["radvel/prior.py:HardBounds.transform", "radvel/prior.py:Jeffreys.transform", "radvel/prior.py:ModifiedJeffreys.transform"]}
{"id": "C43", "title": "Eccentricity prior rejects exactly the forbidden eccentricities", "statement": "EccentricityPrior is -inf (or the finite stand-in in nested sampling) exactly when some listed planet's eccentricity is negative or above its limit, and otherwise minus the sum of the logs of the limits, in every basis.", "quantifier": "for every planet list, limits and every basis", "why_tests_cant": "All planet lists and bases.", "anchors": ["radvel/prior.py:EccentricityPrior.__call__"]}
{"id": "C44", "title": "Positive-K prior rejects exactly negative amplitudes", "statement": "PositiveKPrior is -inf exactly when some planet's semi-amplitude is negative, in every basis.", "quantifier": "for every basis, number of planets and all values", "why_tests_cant": "Needs every basis and small amplitudes.", "anchors": ["radvel/prior.py:PositiveKPrior.__call__", "radvel/model.py:Vector.init_index_dict"]}
{"id": "C45", "title": "Baseline prior is continuous and favours short periods", "statement": "InformativeBaselinePrior is 0 up to baseline+duration, then decreases continuously with the period and is never positive; it gives the same value for per and logper parametrisations.", "quantifier": "for all periods, baselines and durations > 0", "why_tests_cant": "Continuity and monotonicity.", "anchors": ["radvel/prior.py:InformativeBaselinePrior.__call__"]}
{"id": "C46", "title": "Secondary-eclipse prior depends on phase only", "statement": "SecondaryEclipsePrior is unchanged when the given eclipse time is shifted by whole periods, and predicted and observed eclipses that are close in time are close in penalty also across phase zero.", "quantifier": "for all elements and shifts", "why_tests_cant": "Failure only near phase zero.", "anchors": ["radvel/prior.py:SecondaryEclipsePrior.__call__", "radvel/utils.py:t_to_phase_vector"]}
{"id": "C47", "title": "Posterior combines priors and likelihood", "statement": "Posterior.logprob is the sum of all priors plus the likelihood when the prior sum is finite and the prior sum alone otherwise; the order of the priors is irrelevant; a -inf prior is never rescued by the likelihood.", "quantifier": "for every list of priors and likelihood value, including infinities and NaN", "why_tests_cant": "Any number of priors and special values.", "anchors": ["radvel/posterior.py:Posterior.logprob", "radvel/posterior.py:Posterior.logprob_array"]}
{"id": "C48", "title": "check_proper_priors decides exactly when nested sampling is possible", "statement": "check_proper_priors succeeds exactly when every free parameter has exactly one non-constraint prior with a transform and no fixed parameter has one; after it succeeds prior_transform fills every coordinate, in the order of get_vary_params, and in-place and copying calls give the same array.", "quantifier": "for every prior list and parameter set", "why_tests_cant": "All combinations of priors and parameters.", "anchors": ["radvel/posterior.py:Posterior.check_proper_priors", "radvel/posterior.py:Posterior.prior_transform", "radvel/posterior.py:Posterior.get_prior_dict"]}
{"id": "C49", "title": "Nested sampling and MCMC target the same posterior", "statement": "For an accepted prior list, logprob equals likelihood_ns plus the log densities of the priors used by prior_transform, and evaluating the constraint priors never raises.", "quantifier": "for every accepted prior list and every parameter vector", "why_tests_cant": "Priors that are ignored or that raise depend on their class.", "anchors": ["radvel/posterior.py:Posterior.extra_likelihood", "radvel/posterior.py:Posterior.likelihood_ns_array", "radvel/prior.py:SecondaryEclipsePrior", "radvel/prior.py:NumericalPrior"]}
{"id": "C50", "title": "Time binning partitions the data", "statement": "timebin terminates for positive bin size and non-empty data, puts every observation in exactly one bin no wider than the bin size, returns inverse-variance weighted means lying within the bin's data range, and conserves total inverse variance.", "quantifier": "for all data sets and bin sizes", "why_tests_cant": "Termination and partition for all inputs.", "anchors": ["radvel/utils.py:timebin"]}
{"id": "C51", "title": "Binning never mixes instruments", "statement": "bintels returns for each telescope label exactly the bins of that telescope's own data and conserves inverse variance per telescope.", "quantifier": "for all data sets and label sequences", "why_tests_cant": "All interleavings of labels.", "anchors": ["radvel/utils.py:bintels"]}
{"id": "C52", "title": "Phase folding", "statement": "t_to_phase returns values in [0,1) (and [1,2) in the second half with cat), equal for times a whole number of periods apart, and t is recovered as tc + (n+phase)*per.", "quantifier": "for all times and periods > 0, each basis", "why_tests_cant": "Continuum and all integers n.", "anchors": ["radvel/utils.py:t_to_phase"]}
{"id": "C53", "title": "Asymmetric errors are never negative", "statement": "geterr returns non-negative lower and upper errors bracketing the median, reading inside the sample.", "quantifier": "for all non-empty samples of any length", "why_tests_cant": "Index arithmetic for every length.", "anchors": ["radvel/utils.py:geterr"]}
{"id": "C54", "title": "Rounding to significant figures", "statement": "round_sig keeps sign and zero, moves a value by at most half a unit of its last kept digit, hence by at most 5 percent for two digits, and is idempotent.", "quantifier": "for all real values and digit counts >= 1", "why_tests_cant": "Continuum.", "anchors": ["radvel/utils.py:round_sig"]}
{"id": "C55", "title": "Elapsed-time display", "statement": "time_print returns a number and unit whose product is the input duration, choosing the unit by the documented thresholds.", "quantifier": "for all durations", "why_tests_cant": "Continuum with thresholds.", "anchors": ["radvel/utils.py:time_print"]}
{"id": "C56", "title": "Julian date conversion round trip", "statement": "jd2date(date2jd(d)) is d truncated to whole seconds, date2jd is strictly increasing in whole seconds and one day apart in date is exactly one apart in JD; the JD of a calendar date is its Julian day number minus one half plus the fraction of the day.", "quantifier": "for all dates", "why_tests_cant": "All dates.", "anchors": ["radvel/utils.py:date2jd", "radvel/utils.py:jd2date"]}
{"id": "C57", "title": "Msini inverts the semi-amplitude", "statement": "Msini(semi_amplitude(m,P,M,e),P,M,e) returns m in the light-planet branch, for both mass units; the corrected branch solves the exact two-body relation.", "quantifier": "for all positive m, P, M and 0<=e<1", "why_tests_cant": "Continuum.", "anchors": ["radvel/utils.py:Msini", "radvel/utils.py:semi_amplitude"]}
{"id": "C58", "title": "Kepler's third law", "statement": "semi_major_axis satisfies a^3 proportional to P^2 M exactly, so it scales as P^(2/3) M^(1/3) and increases in both.", "quantifier": "for all positive P and M", "why_tests_cant": "Continuum.", "anchors": ["radvel/utils.py:semi_major_axis"]}
{"id": "C59", "title": "Working directory is always restored", "statement": "After any block run under working_directory, returning or raising, nested to any depth, the process is in the directory it was in before; compiling a report leaves the caller's directory unchanged.", "quantifier": "for every program run inside the block and every nesting", "why_tests_cant": "All nestings and exceptions.", "anchors": ["radvel/utils.py:working_directory", "radvel/report.py:RadvelReport.compile"]}
{"id": "C60", "title": "Drawn models use the drawn samples", "statement": "Row j returned by draw_models_from_chain is the model evaluated at the j-th drawn chain sample, and the model's parameters are left as they were.", "quantifier": "for every chain, every draw and time grid", "why_tests_cant": "Universal over chains.", "anchors": ["radvel/utils.py:draw_models_from_chain", "radvel/model.py:GeneralRVModel.array_to_params"]}
{"id": "C61", "title": "Early stopping needs two consecutive passed checks after burn-in", "statement": "When mcmc stops before the requested number of steps, the two most recent convergence checks were passed, both on post-burn-in samples.", "quantifier": "for every sequence of convergence statistics and every setting", "why_tests_cant": "All schedules of checks.", "anchors": ["radvel/mcmc.py:mcmc", "radvel/mcmc.py:convergence_check"]}
{"id": "C62", "title": "Number of MCMC steps", "statement": "mcmc makes at most nrun steps per walker and at least one check interval.", "quantifier": "for all nrun and checkinterval", "why_tests_cant": "Rounding over all pairs.", "anchors": ["radvel/mcmc.py:mcmc"]}
{"id": "C63", "title": "Chain rows stay aligned", "statement": "In the returned table the lnprobability of a row belongs to the parameters in that row, every stored sample of every walker and ensemble appears exactly once, and the trend plot recovers each walker's and ensemble's sequence.", "quantifier": "for all numbers of parameters, walkers, steps and ensembles", "why_tests_cant": "Index arithmetic for all sizes.", "anchors": ["radvel/mcmc.py:mcmc", "radvel/mcmc.py:convergence_check", "radvel/plot/mcmc_plots.py:TrendPlot.plot"]}
{"id": "C64", "title": "Gelman-Rubin statistic", "statement": "The statistic is unchanged by shifting and scaling a parameter and by reordering the chains, its square is at least 1-1/n and equals that exactly when all chain means agree.", "quantifier": "for all chains of any number and length with non-zero variance", "why_tests_cant": "All sizes and values.", "anchors": ["radvel/mcmc.py:convergence_calculate"]}
{"id": "C65", "title": "Better mixing never fails the Tz test", "statement": "If every parameter's between-chain variance is as small as independent draws would give, the Tz criterion is met.", "quantifier": "for all chains", "why_tests_cant": "The discarded case is exactly the good one.", "anchors": ["radvel/mcmc.py:convergence_calculate"]}
{"id": "C66", "title": "The first convergence check cannot pass", "statement": "The relative-change-of-autocorrelation criterion makes the first computed check fail, so at least three checks precede early stopping.", "quantifier": "for all statistics and settings", "why_tests_cant": "All statistics.", "anchors": ["radvel/mcmc.py:convergence_calculate", "radvel/mcmc.py:convergence_check"]}
{"id": "C67", "title": "Interrupted runs resume from what was saved", "statement": "Saving and then proceeding with the same ensembles, walkers and parameters restores every chain, log-probability, acceptance count and burn-in state; different shapes are rejected.", "quantifier": "for all shapes and contents", "why_tests_cant": "All shapes.", "anchors": ["radvel/mcmc.py:mcmc"]}
{"id": "C68", "title": "Walkers start spread out", "statement": "Every free parameter gets a strictly positive initial scale.", "quantifier": "for every parameter kind and value", "why_tests_cant": "Zero occurs at isolated values.", "anchors": ["radvel/mcmc.py:mcmc"]}
{"id": "C69", "title": "Maximum-likelihood fit returns the optimiser's solution", "statement": "After maxlike_fitting the posterior's parameters are the optimiser's result, and logprob is not lower than at the start.", "quantifier": "for every optimiser trace", "why_tests_cant": "Depends on which point the optimiser evaluates last.", "anchors": ["radvel/fitting.py:maxlike_fitting"]}
{"id": "C70", "title": "Model comparison enumerates every model once", "statement": "model_comp with params=['e'] or ['nplanets'] fits exactly one model for every subset of the candidate planets; ['trend'] fits the nested models in order; ['jit'] two models.", "quantifier": "for every number of planets and every vary pattern", "why_tests_cant": "All subsets.", "anchors": ["radvel/fitting.py:model_comp"]}
{"id": "C71", "title": "Model comparison depends only on its arguments", "statement": "Calling model_comp twice with the same arguments returns the same list.", "quantifier": "for every history of earlier calls", "why_tests_cant": "Only a second call shows it.", "anchors": ["radvel/fitting.py:model_comp", "radvel/driver.py:ic_compare"]}
{"id": "C72", "title": "The no-GP comparison model has no GP", "statement": "In a 'gp' comparison the reduced model has all GP hyperparameters fixed and the free-parameter count is reduced accordingly.", "quantifier": "for every set of hyperparameters and likelihood list", "why_tests_cant": "All parameter sets.", "anchors": ["radvel/fitting.py:model_comp"]}
{"id": "C73", "title": "--fixjitter fixes the jitters", "statement": "radvel ic --fixjitter compares models whose jitter parameters are not free.", "quantifier": "for every posterior", "why_tests_cant": "Universal over posteriors.", "anchors": ["radvel/driver.py:ic_compare"]}
{"id": "C74", "title": "Comparison lists are deduplicated", "statement": "ic_compare keeps exactly one entry for each set of free parameters, the first one.", "quantifier": "for every list of comparison results", "why_tests_cant": "All lists.", "anchors": ["radvel/driver.py:ic_compare"]}
{"id": "C75", "title": "Comparison-table verdicts", "statement": "In the AICc table rows are sorted by AICc and the most recent verdict at or above a row is the one for that row's delta AICc.", "quantifier": "for every list of models", "why_tests_cant": "All lists of values.", "anchors": ["radvel/report.py:TexTable.tab_comparison"]}
{"id": "C76", "title": "nested_sampling.run can be repeated", "statement": "Calling run again with the same arguments and overwrite=True behaves as the first call; the caller's keyword dictionaries are not modified.", "quantifier": "for every sampler and every keyword dictionary", "why_tests_cant": "Only non-empty dictionaries and a second call show it.", "anchors": ["radvel/nested_sampling.py:run", "radvel/nested_sampling.py:_run_dynesty"]}
{"id": "C77", "title": "Nested sampling without output directory leaves other files alone", "statement": "Running with output_dir=None does not create or delete files that existed before.", "quantifier": "for every prior content of the working directory", "why_tests_cant": "Depends on the directory content.", "anchors": ["radvel/nested_sampling.py:_run_multinest"]}
{"id": "C78", "title": "Existing results are protected", "statement": "run with an existing results file and neither overwrite nor proceed raises before sampling and leaves all files unchanged; reserved keywords are rejected.", "quantifier": "for every file system state, sampler and keyword set", "why_tests_cant": "All states.", "anchors": ["radvel/nested_sampling.py:run"]}
{"id": "C79", "title": "Status file behaves like a map of maps", "statement": "After any sequence of completed save_status calls load_status returns for every section and option the last saved value and nothing else is lost.", "quantifier": "for every sequence of saves", "why_tests_cant": "All histories.", "anchors": ["radvel/driver.py:save_status", "radvel/driver.py:load_status"]}
{"id": "C80", "title": "Status survives a crash", "statement": "If the process dies during save_status the file still holds either the old or the new content.", "quantifier": "for every crash point", "why_tests_cant": "Crash points.", "anchors": ["radvel/driver.py:save_status"]}
{"id": "C81", "title": "Pipeline order is enforced", "statement": "mcmc, ns, plots, tables, derive and report succeed only after the steps whose results they need have been run.", "quantifier": "for every history of commands", "why_tests_cant": "All command histories.", "anchors": ["radvel/driver.py"]}
{"id": "C82", "title": "Sampler choice", "statement": "_pick_sampler returns the requested sampler if it has been run, chooses mcmc or ns automatically when exactly one has been run, and otherwise raises.", "quantifier": "for all argument values and status contents", "why_tests_cant": "Full decision table over status contents.", "anchors": ["radvel/driver.py:_pick_sampler"]}
{"id": "C83", "title": "Command-line keyword parsing", "statement": "A string of space-separated key=value pairs without spaces or '=' inside is parsed into exactly those keys, with integers, floats and booleans recognised in that order.", "quantifier": "for all strings", "why_tests_cant": "All strings.", "anchors": ["radvel/driver.py:_process_kwargs_str", "radvel/driver.py:_cast_str_arg"]}
{"id": "C84", "title": "Vector conversions flag the rows they convert", "statement": "v_to_synth fixes, and v_from_synth frees, exactly the rows whose parameter changes; other flags stay.", "quantifier": "for every basis, number of planets and array", "why_tests_cant": "Ten bases times all arrays.", "anchors": ["radvel/basis.py:v_to_synth", "radvel/basis.py:v_from_synth"]}
{"id": "C85", "title": "Celerite sees each residual at its own time", "statement": "CeleriteLikelihood pairs every observation time with its own residual and error.", "quantifier": "for all data sets in any order", "why_tests_cant": "Test data are usually in time order.", "anchors": ["radvel/likelihood.py:CeleriteLikelihood"]}
{"id": "C86", "title": "Kernel hyperparameters are read from their own rows", "statement": "A GP likelihood whose constructor accepts the hyperparameter names can be evaluated and gives each kernel slot the value in the row of its own parameter.", "quantifier": "for all accepted hyperparameter names and all vectors", "why_tests_cant": "Names are free-form strings.", "anchors": ["radvel/likelihood.py:update_kernel_params", "radvel/gp.py"]}
{"id": "C87", "title": "Predictions leave the likelihood usable", "statement": "After predict, whether it returns or raises, the kernel holds the distances of the data, so later evaluations are right.", "quantifier": "for all states and prediction times", "why_tests_cant": "Exceptional paths.", "anchors": ["radvel/likelihood.py:GPLikelihood.predict"]}
{"id": "C88", "title": "GP likelihood is the multivariate normal density", "statement": "GPLikelihood.logprob is the log of the multivariate normal density of the residuals with the kernel covariance plus errors and jitter in quadrature.", "quantifier": "for all data, kernels and regular hyperparameters", "why_tests_cant": "Real analysis over all matrices.", "anchors": ["radvel/likelihood.py:GPLikelihood.logprob"]}
{"id": "C89", "title": "GP evaluation keeps dictionary and vector in step for hyperparameters", "statement": "After logprob of a GP likelihood the dictionary entry of every hyperparameter has the value of its row, everything else is unchanged.", "quantifier": "for every reachable state", "why_tests_cant": "Writes through a shared object during an evaluation are invisible in tests of return values.", "anchors": ["radvel/likelihood.py:update_kernel_params"]}
{"id": "C90", "title": "Percentile errors do not change the sample", "statement": "geterr leaves the array it is given as it was, angular or not.", "quantifier": "for all samples", "why_tests_cant": "Tests look at the returned numbers; the report calls geterr with columns of the chains and goes on using them.", "anchors": ["radvel/utils.py:geterr", "radvel/report.py:_row"]}
{"id": "C91", "title": "Formatting with errors", "statement": "sigfig stops for every input, never rounds a non-zero median to zero when the errors have decimals, leaves errors with two or more decimals unchanged, and returns equal errors for equal errors.", "quantifier": "for all medians and errors", "why_tests_cant": "The loop adds decimals until the value is non-zero: termination is a statement about all reals.", "anchors": ["radvel/utils.py:sigfig"]}
{"id": "C92", "title": "Both phase functions agree", "statement": "t_to_phase_vector returns the same phases as t_to_phase for a vector in step with its dictionary.", "quantifier": "for every basis, planet, vector and time", "why_tests_cant": "The two implementations read different representations; agreement is needed in every basis.", "anchors": ["radvel/utils.py:t_to_phase", "radvel/utils.py:t_to_phase_vector"]}
{"id": "C93", "title": "logjit conversion", "statement": "initialize_posterior replaces every logjit parameter by a jit parameter with the exponential of its value and the same vary flag and keeps the others.", "quantifier": "for every parameter dictionary", "why_tests_cant": "The dictionary is changed while it is iterated; what happens depends on key positions.", "anchors": ["radvel/utils.py:initialize_posterior"]}
{"id": "C94", "title": "Density", "statement": "density(mass, radius) times the volume of the sphere is the mass, for Earth and Jupiter units; other units are rejected.", "quantifier": "for all masses and positive radii", "why_tests_cant": "Continuum; unit conversion errors are constant factors that a tolerance can hide.", "anchors": ["radvel/utils.py:density"]}
{"id": "C95", "title": "Stored samples form one chain", "statement": "Every sample stored by mcmc after the first is one sampler move from the sample stored before it.", "quantifier": "for every move function, check interval and number of rounds", "why_tests_cant": "Moves are random, so a restart in every block looks like any other random step.", "anchors": ["radvel/mcmc.py:mcmc", "radvel/mcmc.py:_domcmc"]}
{"id": "C96", "title": "A run returns its own samples", "statement": "What mcmc returns depends only on its arguments and on random numbers, not on what an earlier run left in the module-level state.", "quantifier": "for every configuration and every leftover state", "why_tests_cant": "Needs two runs in one process, the second one with few steps.", "anchors": ["radvel/mcmc.py:StateVars.reset", "radvel/mcmc.py:mcmc"]}
{"id": "C97", "title": "Runs complete", "statement": "With at least one free parameter, walker and ensemble, a check interval of at least 2, thin at least 1 and enough steps for one round, mcmc returns a table.", "quantifier": "for every move function, all autocorrelation times and every start or resumed state", "why_tests_cant": "Division by zero, NaN statistics and empty arrays occur for particular chains.", "anchors": ["radvel/mcmc.py:mcmc", "radvel/mcmc.py:convergence_check", "radvel/mcmc.py:convergence_calculate"]}
{"id": "C98", "title": "Returned samples are post-burn-in", "statement": "If burn-in has completed, the table returned by mcmc holds only samples taken after burn-in.", "quantifier": "for every move function, configuration and number of rounds", "why_tests_cant": "Depends on the round in which burn-in happens to end.", "anchors": ["radvel/mcmc.py:mcmc"]}
{"id": "C99", "title": "Starting scales follow the current values", "statement": "Where no scale is given, the starting scale of a parameter is a function of its name and its current value.", "quantifier": "for every parameter and every history of runs", "why_tests_cant": "Needs two runs on one posterior with a change of parameters in between.", "anchors": ["radvel/mcmc.py:mcmc"]}
{"id": "C100", "title": "Model comparison leaves the caller's posterior alone", "statement": "model_comp works on copies: the posterior passed to it has the same parameter values, flags and likelihood cache afterwards.", "quantifier": "for every posterior and every list of comparisons", "why_tests_cant": "Needs a look at the hidden cache of the argument after the call.", "anchors": ["radvel/fitting.py:model_comp"]}
{"id": "C101", "title": "Mixed comparisons enumerate every combination once", "statement": "model_comp with params=['nplanets','e'] fits exactly one model for every pair of a subset of the planets and a set of eccentric planets among those kept.", "quantifier": "for every number of planets and vary pattern", "why_tests_cant": "All pairs of subsets.", "anchors": ["radvel/fitting.py:model_comp"]}
{"id": "C102", "title": "Samples and posterior belong together", "statement": "The samples and the posterior that a table, a report or derived parameters are made from come from the same run, the last one of the sampler used.", "quantifier": "for every sequence of successful commands, sampler and table type", "why_tests_cant": "All command histories.", "anchors": ["radvel/driver.py:tables", "radvel/driver.py:report", "radvel/driver.py:derive"]}
{"id": "C103", "title": "Derived parameters belong to the samples", "statement": "The derived parameters that a table or a report joins to the samples were derived from these samples.", "quantifier": "for every sequence of successful commands", "why_tests_cant": "All command histories.", "anchors": ["radvel/driver.py:tables", "radvel/driver.py:report", "radvel/driver.py:derive"]}
{"id": "C104", "title": "Tables do not depend on each other", "statement": "What a table contains does not depend on which other tables are requested in the same command and in which order.", "quantifier": "for all lists of table types", "why_tests_cant": "All lists.", "anchors": ["radvel/driver.py:tables"]}
{"id": "C105", "title": "Later steps find what they need", "statement": "After a sequence of successful commands, a command whose prerequisites have been run fails only if its own computation does.", "quantifier": "for every sequence of successful commands", "why_tests_cant": "All command histories.", "anchors": ["radvel/driver.py"]}
{"id": "C106", "title": "Saved nested-sampling results load back", "statement": "load_results on the results file of a successful run returns the table and evidence that run returned; the table has one row per sample of the package, in order: the sample and its log posterior.", "quantifier": "for every package behaviour, sampler, posterior and arguments", "why_tests_cant": "The packages and the samples they return are arbitrary.", "anchors": ["radvel/nested_sampling.py:run", "radvel/nested_sampling.py:load_results"]}
{"id": "C107", "title": "Packages are called with what was asked for", "statement": "A successful nested-sampling run has the chosen package sample exactly once, with the caller's keywords and radvel's own and no others.", "quantifier": "for every sampler, all keyword dictionaries and file system states", "why_tests_cant": "All keyword dictionaries.", "anchors": ["radvel/nested_sampling.py"]}
{"id": "C108", "title": "An existing output directory can be used", "statement": "With overwrite=True, nested sampling into an output directory that exists reaches the sampling step.", "quantifier": "for every sampler and file system state", "why_tests_cant": "All file system states.", "anchors": ["radvel/nested_sampling.py"]}
{"id": "C109", "title": "Enough walkers start", "statement": "Every ensemble of mcmc starts with the requested number of walkers, or twice the number of free parameters if that is larger, and every walker's coordinates are the current values plus a random part of the scales.", "quantifier": "for every number of walkers, every list of free parameters and all random numbers", "why_tests_cant": "All pairs of sizes.", "anchors": ["radvel/mcmc.py:mcmc"]}
{"id": "C110", "title": "Rows of the parameter table show their own parameter", "statement": "The row made for a parameter in the report's table of parameters shows the samples, the maximum and the label of that parameter.", "quantifier": "for all names of instruments, columns, maxima and labels", "why_tests_cant": "Depends on coincidences between names.", "anchors": ["radvel/report.py:TexTable._row", "radvel/report.py:TexTable._data"]}
{"id": "C111", "title": "Every extra parameter has one row", "statement": "Every instrument parameter that is in the samples has exactly one row in the report's table of parameters.", "quantifier": "for all names of instruments", "why_tests_cant": "Depends on substrings of the names.", "anchors": ["radvel/report.py:TexTable.tab_params"]}
{"id": "C112", "title": "The parameter table lists all fitted parameters", "statement": "The report's table of parameters has rows for the parameters of the fitted basis, for the orbital parameters and for all other fitted parameters.", "quantifier": "for every basis, number of planets and set of other parameters", "why_tests_cant": "All combinations of bases and names.", "anchors": ["radvel/report.py:RadvelReport.__init__", "radvel/report.py:TexTable.tab_params", "radvel/driver.py:sampling_postprocessing"]}
{"id": "C113", "title": "Units in the parameter table", "statement": "Every row of the parameter table has the unit of its kind of parameter.", "quantifier": "for all names of instruments", "why_tests_cant": "Depends on prefixes of the names.", "anchors": ["radvel/report.py:TexTable._data"]}
{"id": "C114", "title": "Every derived parameter has one row", "statement": "The table of derived parameters has exactly one row for every derived parameter in the samples, with its own numbers and unit.", "quantifier": "for every number of planets, all samples, every iteration order of sets", "why_tests_cant": "Set order; needs many planets.", "anchors": ["radvel/report.py:TexTable.tab_derived", "radvel/plot/mcmc_plots.py:DerivedPlot"]}
{"id": "C115", "title": "Units of derived masses", "statement": "Derived masses are shown in Earth, Jupiter or solar masses, whichever fits, converted by the ratio of the units, and making the table again gives the same numbers and units.", "quantifier": "for all samples and numbers of planets", "why_tests_cant": "Needs two tables of one report.", "anchors": ["radvel/plot/mcmc_plots.py:DerivedPlot.__init__"]}
{"id": "C116", "title": "The table of velocities is complete", "statement": "The table of velocities shows the observations in order up to the limit, says truly how many are shown, and is valid LaTeX.", "quantifier": "for all data sets, limits and instrument names", "why_tests_cant": "All lengths and names.", "anchors": ["radvel/report.py:TexTable.tab_rv"]}
{"id": "C117", "title": "Every observation is used once", "statement": "initialize_posterior builds a posterior whose data are all observations of the setup file, each once, with its own time, velocity, uncertainty and instrument.", "quantifier": "for every setup file and option", "why_tests_cant": "All tables of data and lists of instruments.", "anchors": ["radvel/utils.py:initialize_posterior", "radvel/likelihood.py:CompositeLikelihood.__init__"]}
{"id": "C118", "title": "The posterior starts at the setup file's values", "statement": "After initialize_posterior every parameter of the setup file has the value, vary flag, scale and linear flag given there, in the dictionary and in the vector; only decorrelation coefficients are added, free and at zero.", "quantifier": "for every setup file without logjit and every option", "why_tests_cant": "All parameter sets, GPs or not.", "anchors": ["radvel/utils.py:initialize_posterior"]}
{"id": "C119", "title": "A complete setup file gives a posterior", "statement": "initialize_posterior succeeds for every setup file that lists at least one instrument and gives every listed instrument observations, gamma and jit (and its GP hyperparameters if GPs are used), and without GPs for no other.", "quantifier": "for every setup file", "why_tests_cant": "All setup files.", "anchors": ["radvel/utils.py:initialize_posterior"]}
{"id": "C120", "title": "GPs for some of the instruments", "statement": "A setup file may define GP hyperparameters for some instruments only; the others get white noise.", "quantifier": "for every setup file", "why_tests_cant": "All subsets of instruments.", "anchors": ["radvel/utils.py:initialize_posterior"]}
{"id": "C121", "title": "Decorrelation applies to every instrument", "statement": "With the option --decorr every listed instrument is decorrelated against every variable in decorr_vars.", "quantifier": "for every setup file", "why_tests_cant": "All setup files, GPs or not.", "anchors": ["radvel/utils.py:initialize_posterior"]}
{"id": "C122", "title": "Samples are converted row by row", "statement": "Converting a table of samples to the synth basis gives in every row what converting the parameters of that row gives.", "quantifier": "for every basis, number of planets and table of samples", "why_tests_cant": "All bases and samples.", "anchors": ["radvel/basis.py:Basis.to_synth"]}
{"id": "C123", "title": "Derived masses obey the laws they come from", "statement": "In every row of the samples the derived minimum mass has the sampled semi-amplitude, the semi-major axis obeys Kepler's third law for star and planet together, and the mass ratio is the ratio of the masses.", "quantifier": "for every posterior, basis, table of samples, stellar mass and random numbers", "why_tests_cant": "Needs all samples, light and heavy companions.", "anchors": ["radvel/driver.py:derive", "radvel/utils.py:Msini", "radvel/utils.py:semi_major_axis"]}
{"id": "C124", "title": "Derived parameters depend on their own row", "statement": "The derived parameters in one row of the samples depend on that row and its random numbers only.", "quantifier": "for every posterior, table of samples and random numbers", "why_tests_cant": "Relation between two runs.", "anchors": ["radvel/driver.py:derive", "radvel/utils.py:Msini"]}
{"id": "C125", "title": "Derived columns are complete", "statement": "derive saves for every planet mass, semi-major axis and mass ratio, and the density exactly if a radius is given, each once, and keeps all other columns; it completes if the setup file is complete.", "quantifier": "for every setup file, posterior and table of samples", "why_tests_cant": "All numbers of planets, with and without radii.", "anchors": ["radvel/driver.py:derive"]}
{"id": "C126", "title": "Derived parameters come from the posterior", "statement": "Derived parameters are computed from the samples and the fixed values of the posterior, not from the starting values in the setup file.", "quantifier": "for every setup file, posterior and table of samples", "why_tests_cant": "Relation between two runs with different setup files.", "anchors": ["radvel/driver.py:derive"]}
{"id": "C127", "title": "Derived densities are densities", "statement": "The derived density is the derived mass divided by the volume of a ball with the drawn radius, and positive for positive masses.", "quantifier": "for every setup file, table of samples and random numbers", "why_tests_cant": "Needs rare random numbers.", "anchors": ["radvel/driver.py:derive", "radvel/utils.py:density"]}
{"id": "C128", "title": "Reported state of the posterior", "statement": "After sampling, every parameter of the posterior that has samples is set to their median, all others keep their values, and the dictionary agrees with the vector; the converted samples describe the samples row by row.", "quantifier": "for every posterior, basis and table of samples", "why_tests_cant": "All samples.", "anchors": ["radvel/driver.py:sampling_postprocessing"]}
{"id": "C129", "title": "Reported uncertainties are quantiles", "statement": "The uncertainty reported for a parameter is half the distance between the 15.9% and 84.1% quantiles of its converted samples, to two significant digits; median and best-fit value are rounded to no more than half of it.", "quantifier": "for every posterior, table of samples and optimiser", "why_tests_cant": "All samples and magnitudes.", "anchors": ["radvel/driver.py:sampling_postprocessing", "radvel/utils.py:sigfig", "radvel/utils.py:round_sig"]}
{"id": "C130", "title": "Fixed parameters are reported unchanged", "statement": "A parameter that was not sampled is reported with its value and uncertainty zero, unless it is computed from sampled ones.", "quantifier": "for every posterior, basis, table of samples and optimiser", "why_tests_cant": "All combinations of fixed parameters and bases.", "anchors": ["radvel/driver.py:sampling_postprocessing"]}
{"id": "C131", "title": "Reports do not depend on the order of samples", "statement": "What is reported after sampling does not depend on the order of the rows of the samples.", "quantifier": "for every permutation of the samples", "why_tests_cant": "All permutations.", "anchors": ["radvel/driver.py:sampling_postprocessing"]}
{"id": "C132", "title": "Reported angles describe the samples", "statement": "The reported argument of periastron and its uncertainty describe the directions that were sampled: samples in nearly the same direction give a small uncertainty and a median in that direction.", "quantifier": "for every table of samples", "why_tests_cant": "Needs samples on both sides of the branch cut.", "anchors": ["radvel/driver.py:sampling_postprocessing", "radvel/basis.py:Basis.to_synth"]}
{"id": "C133", "title": "Every parameter is reported", "statement": "After sampling with all free parameters in the samples, every converted parameter of the posterior is reported.", "quantifier": "for every posterior, basis and table of samples", "why_tests_cant": "Needs samples with unphysical eccentricities.", "anchors": ["radvel/driver.py:sampling_postprocessing", "radvel/basis.py:Basis.to_synth"]}
{"id": "C134", "title": "Binned points show their bins", "statement": "fastbin divides the data range into equal parts and every point falls in exactly one; for each part with at least three points it returns the centre, the mean and the standard error of the mean.", "quantifier": "for all lists of points and numbers of bins", "why_tests_cant": "All data and edges of bins.", "anchors": ["radvel/utils.py:fastbin"]}
{"id": "C135", "title": "Instruments can be told apart", "statement": "mtelplot draws every point exactly once under its own instrument, with the format the caller asks for, for any number of instruments, and no two instruments look the same.", "quantifier": "for all data, instruments and formats", "why_tests_cant": "All sets of names; needs many instruments.", "anchors": ["radvel/plot/__init__.py:mtelplot", "radvel/plot/__init__.py:telplot"]}
{"id": "C136", "title": "Panels agree on formats", "statement": "Drawing a panel leaves the caller's formats unchanged, and an instrument looks the same in all panels of a figure.", "quantifier": "for all data, instruments and formats", "why_tests_cant": "Relation between two calls.", "anchors": ["radvel/plot/__init__.py:mtelplot"]}
{"id": "C137", "title": "One panel for every planet", "statement": "A figure has one phase panel for every planet, in a cell of its own, unless phase panels are switched off; panels are lettered consecutively or not at all; the figure and its own axes are returned.", "quantifier": "for all numbers of planets, rows, columns and likelihoods, and all options", "why_tests_cant": "All grids and options.", "anchors": ["radvel/plot/orbit_plots.py:MultipanelPlot.plot_multipanel", "radvel/plot/orbit_plots.py:GPMultipanelPlot.plot_multipanel"]}
{"id": "C138", "title": "The GP figure shows the measured velocities", "statement": "Every time series panel of the GP figure shows the measured velocities without their offsets, less the orbit and the GP mean if the options say so, each once with its own instrument, however often it is drawn.", "quantifier": "for all data, means, options and formats", "why_tests_cant": "Relation between calls; aliasing.", "anchors": ["radvel/plot/orbit_plots.py:GPMultipanelPlot.plot_timeseries", "radvel/plot/orbit_plots.py:GPMultipanelPlot.plot_gp_like", "radvel/plot/orbit_plots.py:GPMultipanelPlot.plot_multipanel"]}
{"id": "C139", "title": "GP bands have the colour of their data", "statement": "The uncertainty band of a GP likelihood has the colour of the points of its instrument.", "quantifier": "for all instruments, orders of likelihoods and formats", "why_tests_cant": "All orders and names.", "anchors": ["radvel/plot/orbit_plots.py:GPMultipanelPlot.plot_gp_like", "radvel/plot/__init__.py:mtelplot"]}
{"id": "C140", "title": "The RV figure shows the measured velocities", "statement": "For every posterior the RV figure is made and shows each observation once at its velocity minus the offset of its own instrument, with an error bar that includes its own jitter, and below it the residual from all planets and the trend.", "quantifier": "for all posteriors, data sets and numbers of instruments and planets", "why_tests_cant": "All posteriors.", "anchors": ["radvel/plot/orbit_plots.py:MultipanelPlot.__init__", "radvel/plot/orbit_plots.py:MultipanelPlot.plot_timeseries", "radvel/plot/orbit_plots.py:MultipanelPlot.plot_residuals"]}
{"id": "C141", "title": "Phase panels show one planet", "statement": "The panel of a planet shows every observation, less its offset, the trend and all other planets, exactly once per period at its orbital phase; the curve is the velocity of that planet alone, and the distance from curve to point is the residual; the highlighted point is the latest one.", "quantifier": "for all posteriors, data sets, planets and orbits", "why_tests_cant": "All orbits, phases and numbers of planets.", "anchors": ["radvel/plot/orbit_plots.py:MultipanelPlot.plot_phasefold", "radvel/utils.py:t_to_phase"]}
{"id": "C142", "title": "Binned points of a phase panel", "statement": "With at least 20 observations a phase panel shows for each of 25 equal parts of the range of phases with at least three observations their mean and standard error, and no observation counts twice; with fewer there are none.", "quantifier": "for all posteriors, data sets and orbits", "why_tests_cant": "All phases; every observation is drawn twice.", "anchors": ["radvel/plot/orbit_plots.py:MultipanelPlot.plot_phasefold", "radvel/utils.py:fastbin"]}
{"id": "C143", "title": "The time axis tells the time", "statement": "Under every observation of the RV figure the axis shows its time minus the epoch in the label; the curve is drawn over the whole visible range, chosen or not.", "quantifier": "for all data sets, epochs and chosen ranges", "why_tests_cant": "All epochs and ranges; full and reduced dates.", "anchors": ["radvel/plot/orbit_plots.py:MultipanelPlot.__init__", "radvel/plot/orbit_plots.py:MultipanelPlot.plot_timeseries", "radvel/plot/orbit_plots.py:MultipanelPlot.plot_residuals"]}
{"id": "C144", "title": "A command line has one meaning", "statement": "A command line is accepted exactly if it is a subcommand followed by uses of its options, in any order and number; every attribute then has the value of the last option used for it, else its default.", "quantifier": "for every subcommand and all command lines", "why_tests_cant": "All command lines.", "anchors": ["radvel/cli.py:main"]}
{"id": "C145", "title": "Commands find their arguments", "statement": "Every attribute of args that a command reads is defined, whatever the accepted command line.", "quantifier": "for every accepted command line", "why_tests_cant": "All command lines and branches of the commands.", "anchors": ["radvel/cli.py:main", "radvel/driver.py"]}
{"id": "C146", "title": "Accepted requests are understood", "statement": "Every accepted request for plots, tables, comparisons and samplers is one that the command knows, and all of it is carried out in the order given; without a request there is a sensible default.", "quantifier": "for every accepted command line", "why_tests_cant": "All command lines; lists that must agree across files.", "anchors": ["radvel/cli.py:main", "radvel/driver.py:plots", "radvel/driver.py:tables", "radvel/driver.py:ic_compare", "radvel/driver.py:_pick_sampler", "radvel/nested_sampling.py:run"]}
{"id": "C147", "title": "Switches mean what they say", "statement": "ic mixes comparisons and lets jitters float unless told otherwise last; --serial runs MCMC serially if its value is True and in parallel if it is False.", "quantifier": "for every accepted command line", "why_tests_cant": "All orders of switches.", "anchors": ["radvel/cli.py:main"]}
{"id": "C148", "title": "Commands have an output directory of their own", "statement": "When a command is called its output directory exists: the one given, else one named after the setup file; nothing else is made, errors change nothing, and different setup files have different directories.", "quantifier": "for every accepted command line and state of the file system", "why_tests_cant": "All names of files and file systems.", "anchors": ["radvel/cli.py:main"]}
{"id": "C149", "title": "Every option has an effect", "statement": "Every option that a subcommand offers sets an attribute that the command reads.", "quantifier": "for every subcommand, option and command line", "why_tests_cant": "Relation between two runs.", "anchors": ["radvel/cli.py:main", "radvel/driver.py"]}
{"id": "C150", "title": "Labels of instrument parameters name the instrument", "statement": "Every parameter of an instrument (offset, jitter, GP hyperparameter) has a label made of its symbol and the name of the instrument, with matching braces; different instruments and parameters have different labels; trend, curvature and shared hyperparameters have their symbols.", "quantifier": "for every instrument name, parameter, basis and choice of planet letters", "why_tests_cant": "All names, including those that contain digits or other names.", "anchors": ["radvel/model.py:Parameters.tex_labels"]}
{"id": "C151", "title": "The table of priors describes every prior", "statement": "The table of priors is made for every posterior; it has one line for every prior, in order, which shows the labels its parameters have in the other tables and its numbers in their places.", "quantifier": "for all lists of priors, parameters and planet letters", "why_tests_cant": "All lists of priors; relation between tables.", "anchors": ["radvel/report.py:TexTable.tab_prior_summary", "radvel/prior.py"]}
{"id": "C152", "title": "The report shows the figures that were made", "statement": "After any history of drawing and sampling the report shows, under their captions, the last RV figure, the last corner plot and the last plot of derived parameters, as far as they were drawn; figures come from the samples that the tables show.", "quantifier": "for every history of plot commands, sampling and removed files", "why_tests_cant": "All histories; relation between several commands and files.", "anchors": ["radvel/driver.py:plots", "radvel/driver.py:report", "radvel/report.py:RadvelReport.texdoc", "radvel/report.py:RadvelReport.compile"]}
{"id": "C153", "title": "What is typed reaches the sampler", "statement": "radvel mcmc runs the sampler with the settings of the command line: the value typed last for an option, else the default of radvel.mcmc, which is the one the help names; chains are saved and resumed in one file of the output directory.", "quantifier": "for every accepted command line and state of the file system", "why_tests_cant": "All command lines; lists that must agree across files.", "anchors": ["radvel/cli.py:main", "radvel/driver.py:mcmc", "radvel/mcmc.py:mcmc"]}
{"id": "C154", "title": "The posterior that a setup file defines", "statement": "For the posterior made from a setup file, and whatever was asked of it before, logprob_array(xs) is the sum of the file's priors plus the logarithm of the density of the file's velocities: independent normal observations around the planets' velocities, the trend and the instrument's offset, with variance error^2 + jitter^2, integrated over an offset that is linear and fixed. The free parameters take their values from xs in the order planets (in the order of the basis), dvdt, curv, instruments; all others keep the value of the file.", "quantifier": "for every setup file, prior list, history of calls and array", "why_tests_cant": "End-to-end over unbounded files, arrays and histories.", "anchors": ["radvel/utils.py:initialize_posterior", "radvel/likelihood.py:Likelihood.set_vary_params", "radvel/likelihood.py:RVLikelihood.logprob", "radvel/likelihood.py:CompositeLikelihood.logprob", "radvel/posterior.py:Posterior.logprob_array", "radvel/model.py:RVModel.__call__"]}
{"id": "C155", "title": "The posterior of a setup file with Gaussian processes", "statement": "For the posterior made from a setup file with GP hyperparameters, and whatever was asked of it before, logprob_array(xs) is the sum of the file's priors plus the logarithm of the density of the file's velocities: those of every instrument are multivariate normal around the planets' velocities, the trend and the instrument's offset, with the covariance of the instrument's kernel plus error^2 + jitter^2 on the diagonal, integrated over an offset that is linear and fixed. It is -inf if a covariance matrix is not positive definite. Hyperparameters that are free are read from xs.", "quantifier": "for every setup file with GPs, list of priors, history of calls and array", "why_tests_cant": "All files, hyperparameters and histories of calls.", "anchors": ["radvel/utils.py:initialize_posterior", "radvel/posterior.py:Posterior.logprob_array", "radvel/likelihood.py:CompositeLikelihood.logprob", "radvel/likelihood.py:GPLikelihood.logprob", "radvel/gp.py"]}
{"id": "C156", "title": "Printing shows the fit and changes nothing", "statement": "Printing a likelihood or posterior always succeeds and shows every parameter once, in order, with the value, flag and uncertainty that a fit would use, then the missing orbital elements of every planet, then every prior, in columns that can be told apart; it changes nothing that is seen later.", "quantifier": "for every reachable state, table of uncertainties, prior list and later history of calls", "why_tests_cant": "All states and histories; relation between runs with and without printing.", "anchors": ["radvel/likelihood.py:Likelihood.__repr__", "radvel/posterior.py:Posterior.__repr__"]}
{"id": "C157", "title": "The table of convergence criteria", "statement": "After MCMC has completed, whatever other commands, failing MCMC runs and changes to the output files follow, the table of convergence criteria shows, under the name of each of the four criteria, the number that the sampler ended with, to three decimal places; for the nested sampler it shows none.", "quantifier": "for every reachable state, every set of numbers, and every later sequence of commands", "why_tests_cant": "All sequences of commands, all numbers (infinite, nan, tiny, huge), all failures.", "anchors": ["radvel/report.py:TexTable.tab_crit", "radvel/driver.py:tables", "radvel/driver.py:report", "radvel/driver.py:mcmc"]}
{"id": "C158", "title": "The progress display", "statement": "After every round of every MCMC run the display shows how much of the run is done: a bar of fixed width filled in proportion (full only at the end), the number of steps made out of the number asked for, and the percentage; it never goes back.", "quantifier": "for every run, new or continued, of any number of rounds", "why_tests_cant": "All run lengths, check intervals and numbers of walkers.", "anchors": ["radvel/mcmc.py:_progress_bar", "radvel/mcmc.py:_status_message_CLI", "radvel/mcmc.py:convergence_check", "radvel/mcmc.py:mcmc"]}
{"id": "C159", "title": "Loading gives back the saved posterior", "statement": "A posterior that was written with writeto and read with posterior.load cannot be told from the one that was saved: after any calls on both they return the same values or exceptions, and the dictionary has the same parameters, values, flags, basis and planets.", "quantifier": "for every posterior, with or without Gaussian processes, every later sequence of calls and every array", "why_tests_cant": "All later histories; relation between two objects.", "anchors": ["radvel/posterior.py:Posterior.writeto", "radvel/posterior.py:load", "radvel/model.py:Parameters.__reduce__"]}
{"id": "C160", "title": "The plot of autocorrelation times", "statement": "After any history of MCMC runs the table of autocorrelation times has one row for each check that was computed after burn-in, with the number of steps per parameter and the least, mean and greatest autocorrelation time of the samples checked; the plot shows all of its rows inside the axes, and the line N/minAfactor, below which are exactly the checks that met the criterion.", "quantifier": "for every run, new or continued, every number of rounds and every table", "why_tests_cant": "All histories of runs; relation between sampler, table and figure.", "anchors": ["radvel/plot/mcmc_plots.py:AutoPlot.plot", "radvel/mcmc.py:convergence_check", "radvel/mcmc.py:mcmc", "radvel/driver.py:mcmc"]}
{"id": "C161", "title": "Corner and trend plots show the free parameters, and every planet has one letter", "statement": "The corner plot and the trend plot show every free parameter of the sampler exactly once, with the samples of its own column and its label; the plot of derived parameters shows every derived column, named with quantity, letter of the planet and unit. A planet has the same letter in all plots and tables. The font size of other figures is not changed.", "quantifier": "for every reachable state, table of samples, number of planets and choice of letters", "why_tests_cant": "All states and tables; relation between several plots.", "anchors": ["radvel/plot/mcmc_plots.py:CornerPlot", "radvel/plot/mcmc_plots.py:TrendPlot.__init__", "radvel/plot/mcmc_plots.py:DerivedPlot", "radvel/plot/mcmc_plots.py:texlabel", "radvel/model.py:Parameters.tex_labels"]}
{"id": "C162", "title": "The transform of a numerical prior is the quantile function of its sample", "statement": "For a prior made from a sample of values, the transform used by nested sampling is non-decreasing, stays within the range of the sample, and maps u in [0, 1] to a u-quantile of the sample, up to the width of a histogram bin.", "quantifier": "for every sample with two different values, every number of bins and every u", "why_tests_cant": "All samples, bins and real numbers u; tests compare a few quantiles with a tolerance.", "anchors": ["radvel/prior.py:NumericalPrior.__init__", "radvel/prior.py:NumericalPrior.transform"]}
{"id": "C163", "title": "Rows of the parameter table show their numbers", "statement": "A row of the table of parameters shows the median of the samples and the distances to the quantiles 15.9% and 84.1%, rounded to two digits, and the best-fit value; angles are shown on one branch; the sign for fixed parameters stands at parameters that were not sampled, with their value, and nowhere else; rows for the same parameter agree.", "quantifier": "for every column of samples, best-fit value, unit and choice of the histogram", "why_tests_cant": "All samples: tests look at a few rows, whose errors have a convenient size and whose angles are far from 180 degrees.", "anchors": ["radvel/report.py:TexTable._row", "radvel/utils.py:sigfig", "radvel/utils.py:round_sig", "radvel/utils.py:geterr"]}
{"id": "C164", "title": "Masses in the phase panels belong to the orbits drawn", "statement": "The masses written in the phase panels of the RV figure were derived from the samples of the run whose orbits are drawn.", "quantifier": "for every sequence of successful commands and every choice of samplers and plots", "why_tests_cant": "All sequences of commands: tests run the commands once, in the usual order.", "anchors": ["radvel/plot/orbit_plots.py:MultipanelPlot.plot_phasefold", "radvel/driver.py:mcmc", "radvel/driver.py:derive", "radvel/driver.py:plots"]}
{"id": "C165", "title": "Phase panels state the reported orbit and mass", "statement": "The text in the phase panel of a planet states its period, semi-amplitude, eccentricity and (after derive) minimum mass, each with the letter of the planet, with the median and uncertainty reported for it, and in the unit written behind the number.", "quantifier": "for all parameters, samples, derived quantiles, planets and letters", "why_tests_cant": "All numbers and letters: tests draw the figure and look at none of its text.", "anchors": ["radvel/plot/orbit_plots.py:MultipanelPlot.plot_phasefold", "radvel/utils.py:sigfig", "radvel/plot/mcmc_plots.py:DerivedPlot"]}
{"id": "C166", "title": "Converted parameters can be edited on their own", "statement": "After params.basis.to_any_basis(params, newbasis), changing a parameter (value, vary flag, step size) of the result does not change the parameter set it was converted from, nor any other one.", "quantifier": "for all bases, parameter sets, keys, numbers of planets and written contents", "why_tests_cant": "Which objects two parameter sets share shows only if a test edits one and reads the other; the tests convert and compare values.", "anchors": ["radvel/basis.py:_copy_params", "radvel/basis.py:Basis.to_any_basis", "radvel/basis.py:Basis.from_synth", "radvel/model.py:Vector.vector_to_dict"]}
{"id": "C167", "title": "The Kepler solver finishes", "statement": "For eccentricities 0 <= e < 1 and any mean anomalies, kepler() returns (its loop has no iteration limit) with a number for every entry, and the C solver returns a number instead of ending the process after 30 iterations.", "quantifier": "for all arrays of mean anomalies and eccentricities", "why_tests_cant": "Whether an iteration converges for every starting point is a statement about a continuum of inputs; the tests solve a handful of orbits.", "anchors": ["radvel/kepler.py:kepler", "src/kepler.c:kepler", "radvel/kepler.py:rv_drive"]}
{"id": "C168", "title": "Velocities exist and are accurate", "statement": "For positive periods and eccentricities from 0 to 0.99, rv_drive returns a number for every time and every other argument, with or without the C extension; it differs from the velocity of the exact Keplerian orbit by at most 1.42e-9 k, the two implementations differ by at most 2.84e-9 k, and model(t) for any number of planets differs from the exact sum by at most 1.42e-9 times the sum of the amplitudes.", "quantifier": "for all times and orbital elements, all sets of parameters and numbers of planets", "why_tests_cant": "Total correctness over a continuum of orbits; the tests compare a few velocities to a tolerance.", "anchors": ["radvel/kepler.py:rv_drive", "src/kepler.c:rv_drive", "radvel/model.py:RVModel.__call__"]}
{"id": "C169", "title": "Velocities in double precision", "statement": "With operations rounded as in double precision, for positive periods and eccentricities from 0 to 0.99, a velocity that rv_drive returns, with or without the C extension, differs from the velocity of the exact orbit by at most k (1.43e-9 + 2.1e-12 |t-tp|/per + 1.2e-16 |om|), also where the tangent in its formula is nearly infinite, and across the jumps of the mean anomaly; the two implementations differ by at most twice that.", "quantifier": "for all times and orbital elements, all numbers of iterations, and all arithmetics with the error bounds of IEEE doubles and library functions correct to four units in the last place", "why_tests_cant": "Rounding errors depend on every input bit; the tests compare a few velocities.", "anchors": ["radvel/kepler.py:rv_drive", "radvel/kepler.py:kepler", "radvel/orbit.py:true_anomaly", "src/kepler.c:kepler", "src/kepler.c:rv_drive"]}
{"id": "C170", "title": "The posterior is that of the exact orbits", "statement": "For every setup file without Gaussian processes, decorrelation and logjit parameters, and whatever was asked of the posterior before, logprob_array(xs) is a number whenever the priors are, and up to the priors it is the logarithm of the density of the velocities around the exact Kepler orbits (integrated over marginalised offsets), to within the sum over the observations of (d|r| + d^2/2)/sigma^2 with d = 1.42e-9 times the sum of the amplitudes and r the residual from the exact model; with and without the C extension the values differ by at most twice that.", "quantifier": "for all setup files of that kind, priors, histories of calls, both Kepler solvers and all arrays with positive periods and eccentricities from 0 to 0.99", "why_tests_cant": "The exact orbits have no closed form, so tests compare the code with itself or with stored values.", "anchors": ["radvel/posterior.py:Posterior.logprob_array", "radvel/likelihood.py:RVLikelihood.logprob", "radvel/model.py:RVModel.__call__", "radvel/kepler.py:rv_drive", "radvel/utils.py:initialize_posterior"]}
{"id": "C171", "title": "The samples of the report are the samples", "statement": "RadvelReport converts the chains row by row: every planet's per, tp, e, w and k are the orbit of that sample (parameters that were not sampled at their values in the posterior), tc is the time of conjunction of that orbit and, in a fit in terms of tc, the sampled tc; all other columns are those of the chains or constant.", "quantifier": "for all bases, numbers of planets, samples and choices of sampled parameters", "why_tests_cant": "The report is only tested by running it; nobody compares its samples with the chains row by row.", "anchors": ["radvel/report.py:RadvelReport.__init__", "radvel/basis.py:Basis.to_synth", "radvel/basis.py:Basis.from_synth", "radvel/orbit.py:timeperi_to_timetrans"]}
{"id": "C172", "title": "from_synth converts tables like parameters", "statement": "from_synth of a DataFrame gives, in every row, the values that from_synth of the parameters of that row gives, for every new basis; with keep=False the columns of the old basis are removed.", "quantifier": "for all tables, new bases and numbers of planets", "why_tests_cant": "Tests convert Parameters objects and vectors only.", "anchors": ["radvel/basis.py:Basis.from_synth"]}
{"id": "C173", "title": "The velocities of a model survive rounding", "statement": "In double precision, a number returned by RVModel.__call__ in the basis per tp e w k differs from the sum of the exact orbits, slope and curvature by at most 1.431e-9 k per planet plus 2.11e-12 k for every period from periastron, 1.21e-16 k per radian of w, 1.13e-13 of the slope and curvature terms and a few times the smallest double; with or without the C extension.", "quantifier": "for all times, time bases, trends, up to 1000 planets with positive periods and eccentricities from 0 to 0.99, and every arithmetic with the error bounds of double precision", "why_tests_cant": "Tests compare a few velocities with stored values; they cannot bound the rounding for all parameters.", "anchors": ["radvel/model.py:GeneralRVModel.__call__", "radvel/model.py:_standard_rv_calc", "radvel/kepler.py:rv_drive"]}
{"id": "C174", "title": "The log-likelihood survives rounding", "statement": "In double precision, with np.sum adding in any order, the log-likelihood of a data set (fixed or sampled gamma, no decorrelation) differs from the logarithm of the normal densities of the measurements around the exact velocities by at most: the effect of the errors of the computed velocities (C173) and of two subtractions on the squares, a relative error of 1.1e-15 + 1.2e-16 n of the n terms, and 2e-15 per measurement.", "quantifier": "for all data sets of up to a million measurements with errors of at least 1e-50, all offsets and jitters, every order of summation, and every arithmetic with the error bounds of double precision", "why_tests_cant": "Tests compare a few likelihoods with tolerances; the order of NumPy's summation depends on the length of the arrays.", "anchors": ["radvel/likelihood.py:loglike_jitter", "radvel/likelihood.py:RVLikelihood.residuals", "radvel/likelihood.py:RVLikelihood.logprob"]}
{"id": "C175", "title": "Vertical axes and legend RMS of the RV figure", "statement": "Unless yscale_auto is set, the vertical axis of every panel of the RV figure goes from -yscale_sigma to +yscale_sigma times the RMS of the data plotted in it, so that at most one part in yscale_sigma squared of them is outside; with show_rms the legend gives the RMS of the residuals of each instrument.", "quantifier": "for all posteriors, data sets and values of yscale_sigma", "why_tests_cant": "Tests draw the figure and look at nothing; the standard deviation is the RMS only if the mean is zero, which a fitted offset makes nearly true in the examples.", "anchors": ["radvel/plot/orbit_plots.py:MultipanelPlot.plot_timeseries", "radvel/plot/orbit_plots.py:MultipanelPlot.plot_residuals", "radvel/plot/orbit_plots.py:MultipanelPlot.plot_phasefold", "radvel/plot/__init__.py:telplot"]}
{"id": "C176", "title": "Likelihood and predictions with the celerite kernel", "statement": "CeleriteLikelihood.logprob is the logarithm of the normal density of the residuals under the documented covariance, and predict gives the conditional mean and standard deviation of the process at the requested times given the data, for all hyperparameters the kernel accepts; the matrix is always positive definite.", "quantifier": "for all data sets, uncertainties, times, hyperparameters and jitters", "why_tests_cant": "Tests run one fit with one data set of the K2-131 example, only look at the likelihood, and start from hyperparameters that are all positive.", "anchors": ["radvel/likelihood.py:CeleriteLikelihood.logprob", "radvel/likelihood.py:CeleriteLikelihood.predict", "radvel/gp.py:CeleriteKernel.compute_covmatrix"]}
{"id": "C177", "title": "Stopping a run while it saves", "statement": "At whatever point a saving MCMC run is stopped, its file lets a later run continue from the round just finished or from the round before.", "quantifier": "for all histories of saved, interrupted and resumed runs, all rounds, and all points between two operations on the file", "why_tests_cant": "Tests run to the end and continue from a complete file; none is interrupted, and an interruption between two statements cannot be placed by a test.", "anchors": ["radvel/mcmc.py:mcmc"]}
{"id": "C178", "title": "Spellings of a command line", "statement": "The other spellings argparse offers (an unambiguous abbreviation of an option, --name=value, bundled one-letter flags, a negative number as a value) mean what the full spelling means, the same for every subcommand; an ambiguous abbreviation is refused; numbers that make no sense for their option are refused.", "quantifier": "for all subcommands, words before and after, option names, abbreviations and values", "why_tests_cant": "The spellings of a command line are unbounded and the test-suite calls driver functions with ready namespaces, never the parser.", "anchors": ["radvel/cli.py:main"]}
{"id": "C179", "title": "Priors with meaningless arguments are refused", "statement": "The constructor of a prior refuses arguments that describe no distribution (a width that is not positive, bounds out of order, a negative lower bound of a logarithmic prior, an eccentricity limit above 1), and every prior it accepts has a density and gives numbers to nested sampling.", "quantifier": "for all real arguments of Gaussian, HardBounds, Jeffreys and ModifiedJeffreys priors, infinite and nan bounds included, and for all planets and limits of an eccentricity prior", "why_tests_cant": "The tests construct priors with sensible arguments only; a wrong one gives nan or -inf somewhere in a fit, or works in MCMC and not in nested sampling.", "anchors": ["radvel/prior.py:Gaussian.__init__", "radvel/prior.py:HardBounds.__init__", "radvel/prior.py:Jeffreys.__init__", "radvel/prior.py:ModifiedJeffreys.__init__", "radvel/prior.py:EccentricityPrior.__init__"]}
{"id": "C180", "title": "A printed posterior determines its priors", "statement": "The text of a posterior lists its priors in order, so that two posteriors printed alike have the same priors.", "quantifier": "for all lists of priors of all classes and all names and numbers in them", "why_tests_cant": "A relation between all pairs of prior lists; tests compare no printed text.", "anchors": ["radvel/posterior.py:Posterior.__repr__", "radvel/prior.py:Gaussian.__repr__", "radvel/prior.py:EccentricityPrior.__repr__", "radvel/prior.py:SecondaryEclipsePrior.__repr__", "radvel/prior.py:PositiveKPrior.__repr__"]}
{"id": "C181", "title": "Parameters declared circular are circular", "statement": "Ultranest is told that a free parameter is circular exactly if it is a time of a planet and both ends of its prior are the same orbit.", "quantifier": "for all lists of free parameters, closed orbits and uniform priors", "why_tests_cant": "Equality of two velocity curves at all times, over all orbits and bounds; the effect on samples near the ends is statistical.", "anchors": ["radvel/nested_sampling.py:_run_ultranest"]}
{"id": "C182", "title": "The log-posterior survives rounding", "statement": "In double precision the log-posterior of Gaussian, uniform and (modified) Jeffreys priors is -inf exactly if a bound is violated, and otherwise the sum of the logarithms of all densities up to a stated rounding error.", "quantifier": "for all lists of priors, instruments, measurements and rounding errors", "why_tests_cant": "A bound over all roundings and all lengths; tests see one platform and a few posteriors.", "anchors": ["radvel/posterior.py:Posterior.logprob", "radvel/prior.py:Gaussian", "radvel/prior.py:HardBounds", "radvel/prior.py:Jeffreys", "radvel/prior.py:ModifiedJeffreys", "radvel/likelihood.py:CompositeLikelihood.logprob"]}
{"id": "C183", "title": "The axis of years tells the year", "statement": "Above every visible observation of the RV figure the upper axis shows the year in which it was made, to within three days; drawing it leaves the axis of the velocities alone.", "quantifier": "for all posteriors, times of observation, epochs and visible ranges", "why_tests_cant": "The error is that of a straight line against the calendar, over all dates and ranges; a test looks at no axis.", "anchors": ["radvel/plot/orbit_plots.py:MultipanelPlot.plot_timeseries", "radvel/plot/orbit_plots.py:GPMultipanelPlot.plot_timeseries"]}
{"id": "C184", "title": "rv_drive answers with one velocity per time", "statement": "rv_drive returns an array of the length of its times, whose entries are the velocities at those times, with the C extension and without; and the model adds up the planets at each time.", "quantifier": "for all arrays of times, orbits and both implementations", "why_tests_cant": "Arrays with one entry or none, and times stored as integers, do not occur in the tests.", "anchors": ["radvel/kepler.py:rv_drive", "radvel/kepler.py:kepler", "radvel/model.py:_standard_rv_calc"]}
{"id": "C185", "title": "Phases in floating point", "statement": "Computed with rounding to the nearest double, the phase of an observation is in [0,1) and differs from the exact phase, on the circle, by a few units of rounding for every period between it and the reference time.", "quantifier": "for all times, reference times and periods, and every rounding to nearest", "why_tests_cant": "The largest error and the rounding up to 1 occur for particular bit patterns.", "anchors": ["radvel/utils.py:t_to_phase", "radvel/utils.py:t_to_phase_vector"]}
{"id": "C186", "title": "Time binning in floating point", "statement": "With rounded sums timebin still ends for every positive bin size, puts every observation in exactly one bin, and makes no bin as wide as the bin size.", "quantifier": "for all floating-point times, bin sizes and every rounding to nearest", "why_tests_cant": "Rounding at the edges of bins and sums that do not change a time occur for particular bit patterns.", "anchors": ["radvel/utils.py:timebin"]}
{"id": "C187", "title": "Percentile errors in floating point", "statement": "Computed with rounding, geterr of samples that are not angles still picks the elements at exactly 15.9 and 84.1 percent of the length, for up to 10^9 samples; its value lies between the two middle elements, and its errors are never negative.", "quantifier": "for all non-empty samples of floating-point numbers and every rounding to nearest", "why_tests_cant": "A rank lost to rounding would show only at particular lengths.", "anchors": ["radvel/utils.py:geterr"]}
{"id": "C188", "title": "Julian dates in floating point", "statement": "With rounding, jd2date(date2jd(d)) is still d truncated to whole seconds, and Julian dates still increase with every second.", "quantifier": "for all dates from year 1 to 9999 and every rounding to nearest", "why_tests_cant": "Which dates come back exactly depends on their bit patterns.", "anchors": ["radvel/utils.py:date2jd", "radvel/utils.py:jd2date"]}
{"id": "C189", "title": "Error bars of binned points in floating point", "statement": "With rounding, the error bar that fastbin gives a bin is a number, and what it takes the square root of differs from the variance of the bin's values by rounding errors only.", "quantifier": "for all values of a bin and every rounding to nearest", "why_tests_cant": "Cancellation below zero happens for particular bit patterns, and its warning is switched off.", "anchors": ["radvel/utils.py:fastbin"]}
{"id": "C190", "title": "Averages of time bins in floating point", "statement": "With rounding and any order of additions, the averages of a bin of timebin lie within the range of its data and differ from the inverse-variance weighted means by rounding errors only; so do their errors.", "quantifier": "for all bins of up to 2^50 observations with positive errors, every rounding to nearest and every order of additions", "why_tests_cant": "Rounding moves an average out of its range for particular bit patterns only.", "anchors": ["radvel/utils.py:timebin"]}
{"id": "C191", "title": "Printed kernels", "statement": "Kernels printed alike are of the same class, have the same value of every hyperparameter, and compute the same covariance matrices with the same exceptions.", "quantifier": "for all kernels, hyperparameter values, data and errors, and every way of printing numbers that uses no comma and tells numbers apart", "why_tests_cant": "Two hyperparameters printed in each other's place, or one left out, shows only on a comparison of two kernels that differ in it.", "anchors": ["radvel/gp.py:SqExpKernel.__repr__", "radvel/gp.py:PerKernel.__repr__", "radvel/gp.py:QuasiPerKernel.__repr__", "radvel/gp.py:CeleriteKernel.__repr__"]}
{"id": "C192", "title": "Time binning in floating point, as a whole", "statement": "With rounding and any order of additions, timebin ends, divides the observations as it does without rounding (each in one bin, bins narrower than the bin size and beginning at least a bin size apart), and returns for each bin its weighted mean time and velocity and their error up to rounding errors.", "quantifier": "for all non-empty data of up to 2^50 observations with positive errors, every bin size, every rounding to nearest, every order of additions and every order of equal times", "why_tests_cant": "Bins and averages depend on one another; the sums that decide the bins are rounded differently for every time.", "anchors": ["radvel/utils.py:timebin"]}
{"id": "C193", "title": "Binning by telescope in floating point", "statement": "With rounding and any order of additions, bintels returns the labels that it returns without rounding, and times, velocities and errors that differ from those by rounding errors only.", "quantifier": "for all data of up to 2^50 observations with positive errors, all labels, every positive bin size, every rounding to nearest and every order of additions", "why_tests_cant": "Whether an observation at the edge of a bin moves depends on the last bit of a sum of its telescope's times.", "anchors": ["radvel/utils.py:bintels", "radvel/utils.py:timebin"]}
{"id": "C194", "title": "Significant figures with a computed logarithm", "statement": "round_sig returns the same number with a logarithm that carries a rounding error as with the exact one, also where the error changes the number of decimals that it rounds to.", "quantifier": "for all numbers in the range of doubles, 1 to 11 significant figures, every rounding to nearest and every logarithm right to 1e-13", "why_tests_cant": "The logarithm falls on the wrong side of a whole number for a few numbers next to powers of ten only.", "anchors": ["radvel/utils.py:round_sig"]}
{"id": "C195", "title": "Decimals in floating point", "statement": "Rounding a numpy number to d decimals gives the nearest number with d decimals up to rounding errors, and keeps a number that has d decimals already.", "quantifier": "for all numbers, all numbers of decimals up to 22 and every rounding to nearest", "why_tests_cant": "Only numbers next to the middle of two decimals go the wrong way.", "anchors": ["radvel/utils.py:round_sig", "radvel/utils.py:sigfig"]}

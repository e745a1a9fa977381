{"id": "C01", "title": "Chain registry is an insertion-ordered map", "statement": "After any sequence of add_chain / add_marker / remove_chain calls (some of which fail), get_names() lists exactly the chains that were successfully added and not since removed, each once, in order of their (latest) insertion, and get_chain(name) returns the chain added last under that name and fails for every other name.", "quantifier": "every finite history of registry calls on a fresh ChainConsumer", "why_tests_cant": "histories are unbounded; a test walks a handful of them", "anchors": ["src/chainconsumer/chainconsumer.py:ChainConsumer.add_chain", "src/chainconsumer/chainconsumer.py:ChainConsumer.remove_chain", "src/chainconsumer/chainconsumer.py:ChainConsumer.add_marker", "src/chainconsumer/chainconsumer.py:ChainConsumer.get_chain", "src/chainconsumer/chainconsumer.py:ChainConsumer.get_names"]}
{"id": "C02", "title": "Rejected registry calls change nothing", "statement": "add_chain raises exactly when the name is taken and remove_chain/get_chain raise exactly when the name is absent; a call that raises leaves the set of names, their order and every stored chain unchanged.", "quantifier": "every reachable registry state and every call", "why_tests_cant": "needs all states and all names", "anchors": ["src/chainconsumer/chainconsumer.py:ChainConsumer.add_chain", "src/chainconsumer/chainconsumer.py:ChainConsumer.remove_chain"]}
{"id": "C03", "title": "Configuration precedence", "statement": "In the chains that every plot, table and summary obtains from the consumer (chains given to get_summary as objects are C111), each configurable attribute has the value from the global override if the override names it explicitly, else the chain's own value if the user set it explicitly on the chain, else the automatically chosen value if the attribute is one that is chosen automatically, else the chain's default.", "quantifier": "every set of chains, every attribute, every override", "why_tests_cant": "the attribute x chain x override space is too large to enumerate", "anchors": ["src/chainconsumer/chainconsumer.py:ChainConsumer._get_final_chains", "src/chainconsumer/chain.py:ChainConfig._apply_if_not_user_set", "src/chainconsumer/chain.py:ChainConfig._apply", "src/chainconsumer/base.py:BetterBase.get_user_specified_dump"]}
{"id": "C04", "title": "Plotting and summarising never modify the user's chains", "statement": "Resolving the final chain settings (done by every plot, table and summary call) leaves every chain object the user holds, and the registry itself, exactly as it was; the settings are applied to fresh objects.", "quantifier": "every heap of chain objects, every registry over it and every override", "why_tests_cant": "aliasing bugs only show on particular object graphs", "anchors": ["src/chainconsumer/chainconsumer.py:ChainConsumer._get_final_chains"]}
{"id": "C05", "title": "Automatic colours are distinct and run out after 88", "statement": "Chains without a colour receive pairwise distinct colours, assigned in registry order, as long as there are at most 88 of them; with more than 88 uncoloured chains every plot or summary fails.", "quantifier": "every registry of any size", "why_tests_cant": "needs every number and position of uncoloured chains", "anchors": ["src/chainconsumer/color_finder.py:Colors.next_colour", "src/chainconsumer/chainconsumer.py:ChainConsumer._get_final_chains"]}
{"id": "C06", "title": "Automatic shading follows the number of contour chains", "statement": "Unless the user or the override sets them, shade and bar_shade are on exactly when fewer than five chains have plot_contour on, and shade_alpha is 1/sqrt(number of such chains), halved when the chain has show_contour_labels on. (plot_contour and show_contour_labels are the chains' own here; what happens if the override sets them is C112.)", "quantifier": "every registry", "why_tests_cant": "quantifies over all registries and all chain settings", "anchors": ["src/chainconsumer/chainconsumer.py:ChainConsumer._get_final_chains"]}
{"id": "C07", "title": "What an accepted chain guarantees", "statement": "The Chain constructor succeeds exactly when the sample table has a row, every column name is a string, every cell is finite, supplied weights are all positive (or no weight column was named and none exists, in which case every row gets weight 1), the number of rows is a multiple of walkers, a named colour column exists, and a multimodal chain uses HDI statistics; the accepted chain then satisfies all of these, always has a statistic, and keeps the user's samples unchanged (shift_params off).", "quantifier": "every table of floats including NaN and infinities, every combination of settings", "why_tests_cant": "the constructor's domain is every table", "anchors": ["src/chainconsumer/chain.py:Chain._validate_model", "src/chainconsumer/chain.py:Chain._copy_df"]}
{"id": "C08", "title": "shift_params recentres parameters and nothing else", "statement": "With shift_params=True every data column of the constructed chain has weighted mean zero, and weights are still positive. (The code violates this: the weight column itself is recentred.)", "quantifier": "every accepted table and every column order", "why_tests_cant": "depends on column order and on all weights", "anchors": ["src/chainconsumer/chain.py:Chain._validate_model"]}
{"id": "C09", "title": "Which columns are parameters", "statement": "data_columns lists, in table order and without repeats, exactly the columns that are not the chain's weight column, not its posterior column and not (case-insensitively) one of the seven reserved names; plotting_columns additionally leaves out the colour column exactly when a cloud is plotted.", "quantifier": "every table and every choice of weight, posterior and colour column", "why_tests_cant": "all names and settings", "anchors": ["src/chainconsumer/chain.py:Chain.data_columns", "src/chainconsumer/chain.py:Chain.plotting_columns"]}
{"id": "C10", "title": "divide() splits the samples without loss", "statement": "For an accepted chain with w > 1 walkers, neither a grid nor with shift_params, divide() returns w chains named '<name> Walker 0..w-1', each with walkers=1 and rows/w rows, whose tables concatenated in order are the original table, and which keep every setting of the parent except the colour.", "quantifier": "every accepted chain and every walker count", "why_tests_cant": "all table sizes and walker counts", "anchors": ["src/chainconsumer/chain.py:Chain.divide"]}
{"id": "C11", "title": "divide() works for every multi-walker chain", "statement": "divide() succeeds on every accepted non-grid chain with more than one walker. (The code violates this for shift_params chains.)", "quantifier": "every accepted chain", "why_tests_cant": "needs all weights", "anchors": ["src/chainconsumer/chain.py:Chain.divide", "src/chainconsumer/chain.py:Chain._validate_model"]}
{"id": "C12", "title": "The maximum posterior point is a sample of maximum posterior", "statement": "get_max_posterior_point returns the largest log posterior in the chain together with the plotting-column values of a row attaining it, and None exactly when the chain has no posterior column. (The code guarantees this only for tables whose row labels are 0..n-1.)", "quantifier": "every accepted chain with any row labels", "why_tests_cant": "all row-label assignments and all tables", "anchors": ["src/chainconsumer/chain.py:Chain.max_posterior_row", "src/chainconsumer/chain.py:Chain.get_max_posterior_point"]}
{"id": "C13", "title": "Covariance matrices are covariance matrices", "statement": "For two or more columns and at least two rows, get_covariance returns the square matrix of weighted sample covariances in the requested column order; it is symmetric and positive semidefinite, and unchanged if all weights are multiplied by the same positive constant, if rows are permuted, or if a constant is added to a column. (The code violates this for every chain made with shift_params: it raises.)", "quantifier": "every accepted chain and column list (real arithmetic)", "why_tests_cant": "all tables and weights", "anchors": ["src/chainconsumer/chain.py:Chain.get_covariance"]}
{"id": "C14", "title": "Correlation matrices are correlation matrices", "statement": "For two or more non-constant columns, get_correlation returns a symmetric matrix with ones on the diagonal and all entries in [-1, 1], unchanged by positive affine rescaling of any column. (The code violates this for every chain made with shift_params: it raises.)", "quantifier": "every accepted chain and column list (real arithmetic)", "why_tests_cant": "all tables and weights", "anchors": ["src/chainconsumer/chain.py:Chain.get_correlation"]}
{"id": "C15", "title": "Correlation works for every column list", "statement": "get_correlation and the covariance/correlation tables succeed for every nonempty list of existing columns. (The code violates this for a single column.)", "quantifier": "every chain and column list", "why_tests_cant": "all column lists", "anchors": ["src/chainconsumer/chain.py:Chain.get_correlation", "src/chainconsumer/analysis.py:Analysis._get_2d_latex_table"]}
{"id": "C16", "title": "Variable selection by name", "statement": "In from_arviz/from_numpyro, a list of plain names keeps exactly the existing variables named, a list of ~names keeps exactly the existing variables not named, in both cases in the sampler's order; None keeps all; a list mixing the two styles is rejected. An empty list keeps all, as documented. (The code violates the last clause: an empty list is rejected.)", "quantifier": "every list of names and every set of variables", "why_tests_cant": "all name lists", "anchors": ["src/chainconsumer/chain.py:_filter_var_names", "src/chainconsumer/chain.py:Chain.from_numpyro", "src/chainconsumer/chain.py:Chain.from_arviz"]}
{"id": "C17", "title": "Information criteria are relative to the best eligible chain", "statement": "aic() and bic() return one entry for exactly the chains that have a posterior, num_eff_data_points and num_free_params; dic() for exactly those with a posterior; all values are >= 0, the smallest is 0 when any chain is eligible, and differences between entries equal the differences of the textbook AICc / BIC / DIC.", "quantifier": "every registry of chains (real arithmetic)", "why_tests_cant": "all sets of chains", "anchors": ["src/chainconsumer/comparisons.py:Comparison.aic", "src/chainconsumer/comparisons.py:Comparison.bic", "src/chainconsumer/comparisons.py:Comparison.dic"]}
{"id": "C18", "title": "Information criteria ignore the posterior's normalisation", "statement": "Adding the same constant to every log posterior of every chain leaves aic(), bic() and dic() unchanged. (The code violates this for dic() and chains whose weight column is also their posterior column.)", "quantifier": "every registry and every constant", "why_tests_cant": "all constants and chains", "anchors": ["src/chainconsumer/comparisons.py:Comparison.aic", "src/chainconsumer/comparisons.py:Comparison.bic", "src/chainconsumer/comparisons.py:Comparison.dic"]}
{"id": "C19", "title": "More parameters cost more", "statement": "Of two eligible chains with the same maximum posterior and the same number of data points, the one with more free parameters has the larger AIC. (The code guarantees this only when there are more than num_free_params + 1 data points.)", "quantifier": "every pair of chains", "why_tests_cant": "all parameter and data counts", "anchors": ["src/chainconsumer/comparisons.py:Comparison.aic"]}
{"id": "C20", "title": "The comparison table is sorted and rectangular", "statement": "comparison_table lists every chain that has a posterior (when the DIC column is on) exactly once, sorted by the requested criterion in the requested direction with chains lacking it last; every row has as many cells as the header and as the column specification.", "quantifier": "every registry and every choice of columns", "why_tests_cant": "all registries and option sets", "anchors": ["src/chainconsumer/comparisons.py:Comparison.comparison_table"]}
{"id": "C21", "title": "Gelman-Rubin verdict", "statement": "For one chain with w > 1 walkers of n > 1 steps, gelman_rubin passes exactly when for every parameter the ratio R computed from within- and between-walker variances satisfies |R - 1| < threshold; R^2 is at least (n-1)/n, with equality exactly when all walkers have the same mean; R is unchanged by reordering walkers and by affine rescaling of the parameter. A parameter that is constant within every walker fails.", "quantifier": "every accepted chain (real arithmetic)", "why_tests_cant": "all tables and walker counts", "anchors": ["src/chainconsumer/diagnostic.py:Diagnostic.gelman_rubin"]}
{"id": "C22", "title": "Diagnostics on several chains are the conjunction", "statement": "gelman_rubin and geweke called with several chains pass exactly when every chain passes on its own, and report for each chain name that chain's own verdict; any failing precondition on one chain makes the whole call raise. A name means the chain registered under it, alone or in a list; a name without a chain raises AssertionError.", "quantifier": "every list of chains with distinct names and every single-chain verdict function", "why_tests_cant": "all lists", "anchors": ["src/chainconsumer/diagnostic.py:Diagnostic.gelman_rubin", "src/chainconsumer/diagnostic.py:Diagnostic.geweke", "src/chainconsumer/diagnostic.py:_sanitise_chains"]}
{"id": "C23", "title": "Geweke compares the requested windows", "statement": "geweke compares, for every walker and parameter, the first floor(first*n) steps with the steps from floor((1-last)*n) on, of that walker and parameter only; the windows are disjoint when first + last <= 1.", "quantifier": "every chain, walker count and window fractions", "why_tests_cant": "all sizes and fractions", "anchors": ["src/chainconsumer/diagnostic.py:Diagnostic.geweke"]}
{"id": "C24", "title": "Density bands are exactly the runs above the threshold", "statement": "The intervals reported for a mask over a grid are exactly the maximal runs of grid points inside the mask that span more than one grid point, in increasing order, pairwise disjoint; extraction never fails.", "quantifier": "every grid and every mask", "why_tests_cant": "all masks of all lengths", "anchors": ["src/chainconsumer/analysis.py:_mask_to_intervals"]}
{"id": "C25", "title": "Marginal distributions are valid distributions", "statement": "The smoothed marginal used by all summaries has increasing abscissae, nonnegative density, and a nondecreasing cumulative curve ending at exactly 1.", "quantifier": "every chain with positive weights (every accepted chain without shift_params) and column with a nondegenerate range, every smoothing and power setting (real arithmetic)", "why_tests_cant": "all data sets and settings", "anchors": ["src/chainconsumer/analysis.py:Analysis._get_smoothed_histogram"]}
{"id": "C26", "title": "Cumulative summary is the equal-tailed interval", "statement": "When it succeeds, the cumulative summary has lower <= centre <= upper and the marginal's cumulative curve takes exactly the values (1-a)/2, 1/2, (1+a)/2 there, a being summary_area; it fails exactly when the first grid point already carries more than (1-a)/2 of the mass.", "quantifier": "every marginal and every summary_area", "why_tests_cant": "all marginals", "anchors": ["src/chainconsumer/analysis.py:Analysis.get_parameter_summary_cumulative"]}
{"id": "C27", "title": "Mean summary is centred", "statement": "The mean summary has the same lower and upper limits as the cumulative summary and its centre is exactly half way between them.", "quantifier": "every marginal and every summary_area", "why_tests_cant": "all marginals", "anchors": ["src/chainconsumer/analysis.py:Analysis.get_parameter_summary_mean"]}
{"id": "C28", "title": "Max-central summary brackets its centre", "statement": "The max_central summary reports the equal-tailed limits and the grid point of highest density as centre; lower <= centre <= upper. (The code violates the bracketing for skewed marginals.)", "quantifier": "every marginal and every summary_area", "why_tests_cant": "all marginals", "anchors": ["src/chainconsumer/analysis.py:Analysis.get_parameter_summary_max_central"]}
{"id": "C29", "title": "Max summary: iso-density interval of the requested mass", "statement": "The max summary always terminates without an exception on a marginal with positive mass; its centre is a point of highest density; if limits are reported then lower <= centre <= upper, the mass between them differs from summary_area by less than 0.003, and the density at every grid point strictly inside is at least the density threshold that both limits were cut at, while the grid points just outside are below it.", "quantifier": "every marginal and every summary_area", "why_tests_cant": "all marginals", "anchors": ["src/chainconsumer/analysis.py:Analysis.get_parameter_summary_max"]}
{"id": "C30", "title": "Max summary gives up only at a density jump", "statement": "The max summary reports no limits only if there are two density thresholds peak/2^50 apart such that the enclosed mass exceeds summary_area by at least 0.003 at the lower threshold (or that threshold is 0) and falls short of it by at least 0.003 at the upper (or that threshold is the peak).", "quantifier": "every marginal and every summary_area", "why_tests_cant": "all marginals", "anchors": ["src/chainconsumer/analysis.py:Analysis.get_parameter_summary_max"]}
{"id": "C31", "title": "HDI summary carries the requested mass", "statement": "The interval of the HDI summary contains at least summary_area of the marginal's mass, and lower <= centre <= upper with the centre at half of the interval's mass (half way between the limits if the interval holds at most 1e-12).", "quantifier": "every marginal and every summary_area", "why_tests_cant": "all marginals", "anchors": ["src/chainconsumer/analysis.py:Analysis.get_parameter_summary_hdi"]}
{"id": "C32", "title": "HDI summary is the narrowest interval", "statement": "No interval between grid points that carries at least summary_area of the mass is narrower than the HDI summary by more than 1e-12. (Guaranteed only when grid spacing exceeds 1e-12 and the first grid point carries less than summary_area.)", "quantifier": "every marginal and every summary_area", "why_tests_cant": "all marginals and all candidate intervals", "anchors": ["src/chainconsumer/analysis.py:Analysis.get_parameter_summary_hdi"]}
{"id": "C33", "title": "HDI summary does not depend on units", "statement": "Rescaling a parameter by a positive constant rescales its HDI summary. (The code violates this: below an absolute scale of 1e-12 the whole range is returned whatever summary_area is.)", "quantifier": "every marginal and every scale factor", "why_tests_cant": "all scales", "anchors": ["src/chainconsumer/analysis.py:Analysis.get_parameter_summary_hdi"]}
{"id": "C34", "title": "HDI bands are super-level sets of the density", "statement": "Every grid point inside a reported HDI band has density at least that of every grid point that is neither in a band nor an isolated single point; bands are increasing and disjoint and the highest-density grid point's level is always at or above the cut. (If only isolated grid points reach the cut, the HDI summary interval is reported instead.)", "quantifier": "every marginal and every summary_area for which a cut exists", "why_tests_cant": "all marginals", "anchors": ["src/chainconsumer/analysis.py:Analysis.get_parameter_hdi_intervals"]}
{"id": "C35", "title": "HDI bands depend on the requested mass", "statement": "The density cut is within 5e-4 x of a level at which the enclosed mass crosses summary_area. In particular, for parameters of any scale different summary_area values give different cuts. (The code violates the latter: when the peak density is below 1e-3 the cut is always half the peak.)", "quantifier": "every marginal and every summary_area", "why_tests_cant": "all marginals and scales", "anchors": ["src/chainconsumer/analysis.py:Analysis.get_parameter_hdi_intervals"]}
{"id": "C36", "title": "Multimodal bounds peak inside their band", "statement": "For bands with endpoints on the grid, each multimodal bound has lower <= centre <= upper and its centre is a grid point of the band with the highest density in the band.", "quantifier": "every marginal and every list of bands", "why_tests_cant": "all marginals and bands", "anchors": ["src/chainconsumer/analysis.py:Analysis.get_parameter_multimodal_bounds"]}
{"id": "C37", "title": "Summaries cover exactly the requested parameters", "statement": "get_summary has one entry per chain and, inside it, one entry per requested column that the chain has, in order, and nothing else; a list of bounds is reported exactly for multimodal chains with at least two bands.", "quantifier": "every registry, chain list and column list", "why_tests_cant": "all registries", "anchors": ["src/chainconsumer/analysis.py:Analysis.get_summary"]}
{"id": "C38", "title": "Summaries do not depend on units or origin", "statement": "For a > 0, replacing a parameter x by a*x+b replaces the mean, cumulative, max_central and max summaries' lower, centre and upper values v by a*v+b.", "quantifier": "every data set, positive weights, settings, a > 0 and b (real arithmetic, no KDE, no shift_params)", "why_tests_cant": "all data and all affine maps", "anchors": ["src/chainconsumer/analysis.py:Analysis._get_smoothed_histogram", "src/chainconsumer/helpers.py:get_extents", "src/chainconsumer/helpers.py:get_smoothed_bins"]}
{"id": "C39", "title": "Summaries do not depend on row order or weight normalisation", "statement": "Permuting the rows of a chain, or multiplying all its weights by the same positive constant, changes no summary.", "quantifier": "every data set, every permutation, every constant", "why_tests_cant": "all permutations", "anchors": ["src/chainconsumer/analysis.py:Analysis._get_smoothed_histogram", "src/chainconsumer/helpers.py:get_extents"]}
{"id": "C40", "title": "Displayed numbers are faithful", "statement": "For a bound with three finite limits, the centre and the two errors shown in the formatted text, multiplied by the power of ten shown, differ from the true centre and errors by at most half a unit of the last displayed digit; all three are shown with the same number of decimals; '\\pm' is used exactly when both errors display the same. (For errors between 10 and 100 the code rounds twice and only guarantees 0.55 units; errors between 100 and 1000 are shown in units of ten, where the last digit counts tens.)", "quantifier": "every bound with finite limits (real arithmetic)", "why_tests_cant": "all triples of numbers", "anchors": ["src/chainconsumer/analysis.py:Analysis._format_single_bound", "src/chainconsumer/analysis.py:Analysis.get_parameter_text"]}
{"id": "C41", "title": "Errors are displayed with at least two significant digits", "statement": "If neither error is zero, the smaller nonzero error is displayed with at least two significant digits (unless it displays in units of ten).", "quantifier": "every bound with finite limits and nonzero errors", "why_tests_cant": "all triples of numbers", "anchors": ["src/chainconsumer/analysis.py:Analysis._format_single_bound"]}
{"id": "C42", "title": "Formatting never fails on finite bounds", "statement": "get_parameter_text returns a text for every bound with three finite limits and an empty text when a limit is missing. (The code violates this for lower = centre = upper = 0.)", "quantifier": "every bound", "why_tests_cant": "all bounds", "anchors": ["src/chainconsumer/analysis.py:Analysis.get_parameter_text", "src/chainconsumer/analysis.py:Analysis._format_single_bound"]}
{"id": "C43", "title": "LaTeX tables are rectangular and complete", "statement": "In get_latex_table every row has as many cells as the column specification has columns; there is one row per chain (or per parameter when transposed) with one cell per unblinded parameter (per chain); blinded parameters appear nowhere. (For repeated chains in the request the transposed table is not rectangular.)", "quantifier": "every registry, chain list, column list, blinding and layout", "why_tests_cant": "all registries and options", "anchors": ["src/chainconsumer/analysis.py:Analysis.get_latex_table"]}
{"id": "C44", "title": "Captions and labels appear verbatim", "statement": "Every generated LaTeX table contains the caption and label exactly as given. (The code guarantees this only when they contain no percent sign; a percent sign makes the call fail or alters the text.)", "quantifier": "every caption and label string", "why_tests_cant": "all strings", "anchors": ["src/chainconsumer/helpers.py:get_latex_table_frame", "src/chainconsumer/analysis.py:Analysis.get_latex_table", "src/chainconsumer/comparisons.py:Comparison.comparison_table"]}
{"id": "C45", "title": "Plot ranges keep the bulk of the samples", "statement": "For a parameter that is not constant, get_extents returns lower <= upper; apart from the lowest histogram cell, at most the threshold fraction of the weight lies below the cell containing lower and at most that fraction above the cell containing upper.", "quantifier": "every data set with positive weights and each of the thresholds used", "why_tests_cant": "all data sets", "anchors": ["src/chainconsumer/helpers.py:get_extents"]}
{"id": "C46", "title": "Grid bins isolate grid values", "statement": "For gridded data whose spacings all exceed half of the first spacing, the bins are increasing and each distinct value lies in its own bin. (Fails for grids whose spacing shrinks below half of the first.)", "quantifier": "every gridded data set with at least two distinct values", "why_tests_cant": "all grids", "anchors": ["src/chainconsumer/helpers.py:get_grid_bins"]}
{"id": "C47", "title": "Smoothing preserves mass", "statement": "Reflect-mode smoothing by any symmetric normalised kernel leaves the histogram's total unchanged, keeps every value between the smallest and largest input value, and in particular keeps it nonnegative; the Gaussian kernel used qualifies.", "quantifier": "every histogram of any length and every symmetric kernel of any radius", "why_tests_cant": "all lengths and radii", "anchors": ["src/chainconsumer/analysis.py:Analysis._get_smoothed_histogram", "src/chainconsumer/helpers.py:get_smoothed_histogram2d"]}
{"id": "C48", "title": "KDE values are positive and linear in the weights", "statement": "With at least nmin training points, evaluate returns a strictly positive value at every target; values are unchanged by permuting the training set, and multiply with the weights' normalisation. With fewer than nmin training points evaluate can fail.", "quantifier": "every training set, weights and targets", "why_tests_cant": "all training sets", "anchors": ["src/chainconsumer/kde.py:MegKDE.evaluate"]}
{"id": "C49", "title": "KDE is affinely invariant", "statement": "Transforming training points and targets by the same invertible affine map leaves evaluate's result unchanged.", "quantifier": "every training set with nonsingular covariance, every target and invertible affine map, any dimension", "why_tests_cant": "all maps and dimensions", "anchors": ["src/chainconsumer/kde.py:MegKDE.__init__", "src/chainconsumer/kde.py:MegKDE.evaluate"]}
{"id": "C50", "title": "The kde setting controls the bandwidth", "statement": "Setting kde=f on a chain multiplies the KDE bandwidth by f in one- and two-dimensional marginals. (The code violates this in two dimensions and in plot_dist: the value is used as the truncation radius.)", "quantifier": "every chain and every f > 0", "why_tests_cant": "all settings", "anchors": ["src/chainconsumer/helpers.py:get_smoothed_histogram2d", "src/chainconsumer/plotting/contours.py:plot_dist", "src/chainconsumer/analysis.py:Analysis._get_smoothed_histogram"]}
{"id": "C51", "title": "Contours enclose highest-density regions", "statement": "In the surface used for contours, every cell's value lies in (0, 1]; denser cells have smaller values; the cells with value <= p carry at most p of the mass, are denser than all other cells, and adding the next densest cell would exceed p.", "quantifier": "every 2D histogram with positive entries, every level p, every tie-breaking of the sort", "why_tests_cant": "all histograms", "anchors": ["src/chainconsumer/plotting/contours.py:_convert_to_stdev", "src/chainconsumer/plotting/contours.py:plot_contour"]}
{"id": "C52", "title": "Contour levels increase with sigma", "statement": "The level for sigma = 0 is 0, levels are in [0, 1) and strictly increase with sigma >= 0, for both level conventions.", "quantifier": "every list of nonnegative sigmas", "why_tests_cant": "all reals", "anchors": ["src/chainconsumer/plotting/contours.py:_get_levels"]}
{"id": "C53", "title": "Every documented colour name works", "statement": "Every palette name and every alias is accepted and gives a palette colour; formatting is idempotent; every string that is not a hex code, palette name or alias is rejected with ValueError. (The code violates the first clause for the alias 'e'.)", "quantifier": "every string", "why_tests_cant": "all strings", "anchors": ["src/chainconsumer/color_finder.py:Colors.format"]}
{"id": "C54", "title": "Scaled colours are valid colours", "statement": "Scaling a six-digit hex colour by any factor >= 0 gives a six-digit hex colour, channelwise floor(min(255, factor*c)), monotone in the factor, identity for factor 1, black for 0.", "quantifier": "every colour and factor >= 0", "why_tests_cant": "all colours and factors", "anchors": ["src/chainconsumer/color_finder.py:Colors.scale_colour", "src/chainconsumer/color_finder.py:Colors._clamp"]}
{"id": "C55", "title": "Plotted columns are the union of the chains' columns", "statement": "Without an explicit column list a plot shows each parameter of any shown chain exactly once, in order of first appearance; an explicit list is used as is; only chains with something to draw are shown, in request order.", "quantifier": "every registry and request", "why_tests_cant": "all registries", "anchors": ["src/chainconsumer/plotter.py:Plotter._sanitise_columns", "src/chainconsumer/plotter.py:Plotter._sanitise_chains"]}
{"id": "C56", "title": "Triangle plots show every pair once", "statement": "plot() of n columns draws every unordered pair of distinct columns in exactly one panel, with the later column vertical, and (with histograms on) every column's histogram exactly once on the diagonal; panels above the diagonal are blank.", "quantifier": "every column list and layout option", "why_tests_cant": "all n", "anchors": ["src/chainconsumer/plotter.py:Plotter.plot", "src/chainconsumer/plotter.py:Plotter._get_triangle_figure"]}
{"id": "C57", "title": "Blinded parameters show no values", "statement": "For a blinded parameter, plot, plot_walks, plot_distributions and plot_summary leave no tick labels on its axes and no summary title. (The code violates this in plot_summary for a parameter that is also log-scaled, in the minor tick labels of log-scaled axes elsewhere, and for a colour bar of a blinded colour parameter.)", "quantifier": "every registry, configuration and blinding", "why_tests_cant": "all configurations", "anchors": ["src/chainconsumer/plotter.py:Plotter.plot", "src/chainconsumer/plotter.py:Plotter._get_triangle_figure", "src/chainconsumer/plotter.py:Plotter.plot_walks", "src/chainconsumer/plotter.py:Plotter.plot_distributions", "src/chainconsumer/plotter.py:Plotter.plot_summary"]}
{"id": "C58", "title": "Truth values are drawn on the parameter's own axis", "statement": "Every truth value is drawn as a line (or marker) perpendicular to the axis that shows its parameter, in every kind of plot, and truths without the parameter are not drawn. (The code violates this in plot_distributions.)", "quantifier": "every list of truths and every panel", "why_tests_cant": "all truths and panels", "anchors": ["src/chainconsumer/plotting/truth.py:plot_truths", "src/chainconsumer/plotter.py:Plotter.plot_distributions", "src/chainconsumer/plotter.py:Plotter.plot"]}
{"id": "C59", "title": "Summary plot panels are scaled to their own parameter", "statement": "In plot_summary without error bars every panel's vertical range fits the curves of its own parameter. (The code violates this: ranges are assigned one panel to the left.)", "quantifier": "every set of chains and columns", "why_tests_cant": "all sets", "anchors": ["src/chainconsumer/plotter.py:Plotter.plot_summary"]}
{"id": "C60", "title": "Parameter ranges cover every shown chain", "statement": "The automatic range of a parameter contains every shown chain's own range for it (the maximum posterior point for point-only chains); a range given in the configuration is used as is.", "quantifier": "every registry and configuration", "why_tests_cant": "all registries", "anchors": ["src/chainconsumer/plotter.py:Plotter._get_parameter_extents", "src/chainconsumer/plotter.py:Plotter._get_custom_extents"]}
{"id": "C61", "title": "Thinned walks and clouds keep aligned points and bounded size", "statement": "plot_walks draws the rows with index a multiple of a step, at least the first, and never more than twice max_points; plot_cloud draws the same rows for x, y and colour, never more than twice num_cloud.", "quantifier": "every chain length, every num_cloud of at least 1/2", "why_tests_cant": "all lengths", "anchors": ["src/chainconsumer/plotter.py:Plotter.plot_walks", "src/chainconsumer/plotting/contours.py:plot_cloud"]}
{"id": "C62", "title": "Truth markers are validated", "statement": "A Truth is rejected exactly when it asks for an edge wider than 1 on an unfilled marker; for filled markers the edge colour defaults to the colour.", "quantifier": "every truth", "why_tests_cant": "all truths", "anchors": ["src/chainconsumer/truth.py:Truth.validate_model", "src/chainconsumer/truth.py:Truth._marker_kwargs"]}
{"id": "C63", "title": "Chains do not influence each other's summaries", "statement": "With explicit columns and no override of summary settings, get_summary of a consumer is the concatenation, in registry order, of get_summary of consumers holding just one of its chains: adding, removing or reconfiguring another chain never changes what is reported for a chain.", "quantifier": "every registry with at most 88 uncoloured chains and distinct names, every column list", "why_tests_cant": "all registries and data", "anchors": ["src/chainconsumer/analysis.py:Analysis.get_summary", "src/chainconsumer/chainconsumer.py:ChainConsumer._get_final_chains"]}
{"id": "C64", "title": "Covariance and correlation tables show the matrix", "statement": "The table of an n-parameter matrix declares n + 1 columns; its header holds an empty cell and the labels in order; line i holds label i padded to the longest label and the entries of row i in order, each as a two-decimal numeral off by at most 0.005 (or inf/nan).", "quantifier": "every matrix of at least one parameter, every label map, captions without percent signs", "why_tests_cant": "all matrices", "anchors": ["src/chainconsumer/analysis.py:Analysis._get_2d_latex_table", "src/chainconsumer/analysis.py:Analysis.get_covariance_table", "src/chainconsumer/analysis.py:Analysis.get_correlation_table"]}
{"id": "C65", "title": "Density ranges fit the curves drawn", "statement": "In plot and plot_distributions the axis along the densities of a panel with curves ranges from 0 to 1.1 times the greatest ordinate of all its curves, so every curve of every chain lies inside.", "quantifier": "every set of chains with positive weights, every configuration, every panel", "why_tests_cant": "all data and numbers of chains", "anchors": ["src/chainconsumer/plotter.py:Plotter.plot", "src/chainconsumer/plotter.py:Plotter.plot_distributions", "src/chainconsumer/plotter.py:Plotter._plot_bars"]}
{"id": "C66", "title": "Panels of a parameter share its range", "statement": "Every axis that shows a parameter ends up with the range determined for that parameter, in plot (both axes below the diagonal; the parameter's axis on it, also when flipped), plot_walks, plot_distributions and plot_summary; later calls never override it.", "quantifier": "every figure and panel (plot_walks: of a parameter that some shown chain has)", "why_tests_cant": "all figures", "anchors": ["src/chainconsumer/plotter.py:Plotter._get_triangle_figure", "src/chainconsumer/plotter.py:Plotter.plot", "src/chainconsumer/plotter.py:Plotter.plot_walks", "src/chainconsumer/plotter.py:Plotter._plot_walk", "src/chainconsumer/plotter.py:Plotter.plot_distributions", "src/chainconsumer/plotter.py:Plotter.plot_summary"]}
{"id": "C67", "title": "Samples from emcee keep every parameter under its name", "statement": "Chain.from_emcee either refuses the call or yields a chain with one column per parameter, in which row i*W + w of column k is parameter k of walker w at the i-th kept step (steps discard + thin - 1 + i*thin). (The code violates this: too few or repeated names drop parameters silently.)", "quantifier": "every run, number of walkers and parameters, thinning, discard and names", "why_tests_cant": "all runs and shapes", "anchors": ["src/chainconsumer/chain.py:Chain.from_emcee"]}
{"id": "C68", "title": "Walkers of an emcee run are separated by divide", "statement": "For a chain made by Chain.from_emcee with walkers set to the number of walkers of the run, the j-th chain returned by divide holds walker j's kept steps in order. (The code violates this: samples are flattened step by step but divided into consecutive blocks.)", "quantifier": "every run with at least two walkers", "why_tests_cant": "all runs and shapes", "anchors": ["src/chainconsumer/chain.py:Chain.from_emcee", "src/chainconsumer/chain.py:Chain.divide"]}
{"id": "C69", "title": "Results for a column depend on that column and the weights only", "statement": "Summaries, covariance and correlation reported for given columns do not change when other columns of the table are added, removed, changed or reordered. (The code violates this with shift_params, where column order decides which weights the later columns are centred with, and with the automatic number of bins for very many rows, as that number is computed from rows divided by columns.)", "quantifier": "every pair of tables agreeing on the weights and the columns asked for, every configuration", "why_tests_cant": "all tables", "anchors": ["src/chainconsumer/chain.py:Chain.__init__", "src/chainconsumer/analysis.py:Analysis.get_summary", "src/chainconsumer/chain.py:Chain.get_covariance", "src/chainconsumer/plotting/config.py:get_bins"]}
{"id": "C70", "title": "Walks are shown in whole", "statement": "In plot_walks the horizontal range covers every step of every walk drawn. (The code violates this: the panels share their horizontal axis and each walk sets its range, so the last walk decides.)", "quantifier": "every figure of walks", "why_tests_cant": "all chain lengths and orders", "anchors": ["src/chainconsumer/plotter.py:Plotter.plot_walks", "src/chainconsumer/plotter.py:Plotter._plot_walk"]}
{"id": "C71", "title": "The running average of a walk averages the steps around each step", "statement": "With a window of w steps (at least 1), the value drawn at a step is the mean of the w consecutive samples around it, for every step that has w/2 neighbours on each side. (The code violates this for windows of one step and windows longer than the walk.)", "quantifier": "every walk and window", "why_tests_cant": "all data and windows", "anchors": ["src/chainconsumer/plotter.py:Plotter._plot_walk"]}
{"id": "C72", "title": "Maximum posterior points of all chains asked for", "statement": "get_max_posteriors returns exactly one point for each chain asked for that has a posterior column (all registered chains by default), in order, and it is a sample of that chain with the greatest posterior; names that are not registered raise KeyError. (The code violates this: one chain with row labels other than 0, 1, ..., such as a divided walker, loses the points of all chains.)", "quantifier": "every registry and every list of names", "why_tests_cant": "all registries and tables", "anchors": ["src/chainconsumer/analysis.py:Analysis.get_max_posteriors", "src/chainconsumer/chain.py:Chain.get_max_posterior_point"]}
{"id": "C73", "title": "The point of a marker is its location", "statement": "For every marker accepted by add_marker the maximum posterior point of its chain has exactly the parameters and values of the location given, in the same order (names not taken for the weight or posterior column, no shift_params, no coordinate used as the colour parameter of a cloud).", "quantifier": "every location, style and configuration", "why_tests_cant": "all locations", "anchors": ["src/chainconsumer/chainconsumer.py:ChainConsumer.add_marker", "src/chainconsumer/chain.py:Chain.get_max_posterior_point"]}
{"id": "C74", "title": "Every parameter has a summary", "statement": "get_summary returns an entry for every chain and every parameter of it asked for, with bounds missing where none can be found, and does not fail because of the data of one parameter. (The code violates this: for parameters without a sample in the range computed by get_extents, such as those of markers, constants and flags, the densities are NaN and IndexError is raised.)", "quantifier": "every accepted chain and marker, with the default statistic", "why_tests_cant": "all tables", "anchors": ["src/chainconsumer/analysis.py:Analysis.get_summary", "src/chainconsumer/analysis.py:Analysis.get_parameter_summary_max", "src/chainconsumer/analysis.py:Analysis._get_smoothed_histogram", "src/chainconsumer/helpers.py:get_extents"]}
{"id": "C75", "title": "Two-dimensional histograms hold the weight of their cells", "statement": "Without KDE, get_smoothed_histogram2d divides both axes like the one-dimensional histograms, reports the centres of the cells, and before smoothing entry (i, j) is the weight of the samples in cell i of the first and cell j of the second parameter, to the chain's power. With smoothing every entry is the Gaussian mean over both axes with mirrored borders, and the sum of all entries is unchanged.", "quantifier": "every chain, pair of columns, weight, power and smoothing", "why_tests_cant": "all data and array shapes", "anchors": ["src/chainconsumer/helpers.py:get_smoothed_histogram2d", "src/chainconsumer/helpers.py:get_smoothed_bins", "src/chainconsumer/helpers.py:get_grid_bins"]}
{"id": "C76", "title": "Exchanging the parameters exchanges the axes", "statement": "The two-dimensional histogram of (y, x) is that of (x, y) with coordinates and array exchanged. (The code violates this with KDE on grids: the number of points along both axes is taken from the first parameter.)", "quantifier": "every chain and pair of columns", "why_tests_cant": "all data and array shapes", "anchors": ["src/chainconsumer/helpers.py:get_smoothed_histogram2d"]}
{"id": "C77", "title": "Logarithmic axes are those of the parameters asked for", "statement": "In every panel of plot, plot_walks, plot_distributions and plot_summary an axis is logarithmic exactly if it runs along the values of a parameter in log_scales; axes of densities, steps, log posteriors and weights are linear. (The code violates this: with flip and a number of parameters other than two the density axis of the last histogram becomes logarithmic instead of its value axis.)", "quantifier": "every figure, panel and configuration", "why_tests_cant": "all figures and options", "anchors": ["src/chainconsumer/plotter.py:Plotter._get_triangle_figure", "src/chainconsumer/plotter.py:Plotter.plot_walks", "src/chainconsumer/plotter.py:Plotter.plot_distributions", "src/chainconsumer/plotter.py:Plotter.plot_summary"]}
{"id": "C78", "title": "Axes are named after the parameters they show", "statement": "Every axis label (in plot_summary: heading) is the configured label, otherwise the name, of the parameter along that axis, and every parameter shown is named by some label of the figure. (The code violates this: plot_distributions ignores configured labels, and with flip a single histogram or a single pair without histograms shows no label for its parameter.)", "quantifier": "every figure, panel and configuration", "why_tests_cant": "all figures and options", "anchors": ["src/chainconsumer/plotter.py:Plotter._get_triangle_figure", "src/chainconsumer/plotter.py:Plotter._plot_walk", "src/chainconsumer/plotter.py:Plotter.plot_distributions", "src/chainconsumer/plotter.py:Plotter.plot_summary", "src/chainconsumer/plotting/config.py:PlotConfig.get_label"]}
{"id": "C79", "title": "Drawn contours enclose the mass of their level", "statement": "The contours in a panel of plot are those of the chains shown for the parameters of that panel, the horizontal parameter along the columns and the vertical one along the rows of the surface; the cells with values up to any level are the highest density region of that mass, and the levels are increasing and equal to the mass within the configured sigmas.", "quantifier": "every chain with positive weights, every pair of parameters, every panel", "why_tests_cant": "all data and array shapes", "anchors": ["src/chainconsumer/plotting/contours.py:plot_contour", "src/chainconsumer/plotting/contours.py:plot_surface", "src/chainconsumer/plotting/contours.py:_convert_to_stdev", "src/chainconsumer/plotting/contours.py:_get_levels", "src/chainconsumer/helpers.py:get_smoothed_histogram2d"]}
{"id": "C80", "title": "The legend names each chain once, in its colour", "statement": "plot shows a legend if asked for, by default if there is more than one chain. It has exactly one entry for each chain shown with show_label_in_legend, in order, with the name of the chain, a handle in its colour, line style and width and a text in its colour (unless switched off); the handle has a line exactly for contours and a marker exactly for points. A configured location is used, counted from the end if negative, IndexError outside the grid; by default the legend is put in a panel in which nothing is drawn. legend_artists decides whether handles are shown. (The code violates this: two flipped histograms and single panels get the legend over what is drawn, chains drawn as clouds only get the handle of contours and points, reverse in legend_kwargs exchanges the colours of the texts, legend_artists has no effect on what is shown.)", "quantifier": "every figure, list of chains and configuration", "why_tests_cant": "all figures and options", "anchors": ["src/chainconsumer/plotter.py:Plotter.plot", "src/chainconsumer/plotter.py:get_artists_from_chains", "src/chainconsumer/plotting/config.py:PlotConfig"]}
{"id": "C83", "title": "Contours are shaded evenly around the chain's colour", "statement": "There is one colour per contour: the chain's colour times a brightness that runs in equal ratios from 1 - gradient/10 for the innermost to 1 + gradient/2 for the outermost contour, channels at most 255; no contour is darker than one inside it, and each line has the colour of the filled contour inside it times one factor of at most 1. (The code violates this: the natural logarithms of the bounds are used as powers of ten, so every brightness is raised to the power ln 10; gradients of 10 or more, or of -2 or less, raise ValueError.)", "quantifier": "every colour, gradient and number of contours", "why_tests_cant": "all colours and gradients", "anchors": ["src/chainconsumer/plotting/contours.py:_scale_colours", "src/chainconsumer/plotting/contours.py:plot_contour", "src/chainconsumer/color_finder.py:Colors.scale_colour"]}
{"id": "C84", "title": "Figures have the size asked for", "statement": "A pair is the size itself, an integer the side of a square; GROW adds the documented 1.5 inches for every parameter, a number scales that size, and the key words are accepted as strings. A colour bar adds one inch to the width of growing figures. (The code violates this: GROW adds 2 inches per parameter, a number scales the part that grows but not the margin, all strings mean GROW.)", "quantifier": "every size, number of parameters, with and without colour bars", "why_tests_cant": "all sizes", "anchors": ["src/chainconsumer/plotter.py:FigSize.get_size", "src/chainconsumer/plotter.py:Plotter.plot"]}
{"id": "C88", "title": "Contours of accepted chains can be drawn", "statement": "Whatever the constructor accepts can be drawn: plot_contour succeeds for every accepted chain whose two-dimensional histogram has at least two cells along both axes. (The code violates this: no sigmas raise IndexError; a single sigma with filling, sigmas that do not increase, opacities above 1 and gradients of 10 or more, or of -2 or less, raise ValueError.)", "quantifier": "every accepted chain and pair of columns", "why_tests_cant": "all chains and options", "anchors": ["src/chainconsumer/plotting/contours.py:plot_contour", "src/chainconsumer/plotting/contours.py:_get_levels", "src/chainconsumer/plotting/contours.py:_scale_colours", "src/chainconsumer/chain.py:ChainConfig"]}
{"id": "C85", "title": "The title over a histogram is the summary", "statement": "In plot and plot_distributions the title over a histogram is the text of what get_summary reports for the only chain with contours (plot_distributions: the only chain), under the label of the parameter without outer dollar signs; there is none if not asked for, for blinded parameters, for more or fewer chains, without shading, and for bounds with a missing end. (The code violates this: for a multimodal chain with a single band the title shows a bound centred on the greatest density, get_summary the one of the HDI.)", "quantifier": "every figure, chain, statistic and configuration", "why_tests_cant": "all tables and options", "anchors": ["src/chainconsumer/plotter.py:Plotter._plot_bars", "src/chainconsumer/plotter.py:Plotter.plot", "src/chainconsumer/plotter.py:Plotter.plot_distributions", "src/chainconsumer/analysis.py:Analysis.get_summary", "src/chainconsumer/analysis.py:Analysis.get_parameter_text"]}
{"id": "C89", "title": "Multimodal chains have summaries", "statement": "get_summary returns for every multimodal chain with positive weights. (The code violates this: if the points at the peak of the marginal alone hold more than summary_area, for instance if the marginal is constant, the bisection for the density cut has no bracket and ValueError is raised.)", "quantifier": "every chain with positive weights", "why_tests_cant": "all marginals", "anchors": ["src/chainconsumer/analysis.py:Analysis.get_parameter_hdi_intervals", "src/chainconsumer/analysis.py:Analysis.get_summary"]}
{"id": "C82", "title": "Labels of contours", "statement": "With show_contour_labels every contour of a positive sigma is labelled with the mass it encloses, to the nearest percent below 99.1 percent and to the nearest tenth of a percent above; without it there are no labels. A greater mass never has a smaller label, and contours of different masses have different labels. (The code violates the last part: at 5 and 6 sigma both contours are labelled 100.0%.)", "quantifier": "every list of nonnegative sigmas and every surface crossed by a level", "why_tests_cant": "all sigmas", "anchors": ["src/chainconsumer/plotting/contours.py:plot_contour", "src/chainconsumer/plotting/contours.py:_get_levels"]}
{"id": "C81", "title": "plot_dist shows what the histograms of plot show", "statement": "For a chain that is not multimodal and has no KDE, plot_dist with summary=True draws a curve through all points of the histogram that plot draws of the same parameter, from its first to its last point; it shades the same interval whenever both shade; and its title is the name shown by plot, an equals sign and the same text. (The code violates this for parameters with a configured label, whose column name is shown instead, and for smoothed grids, where the curve does not cover the grid.)", "quantifier": "every chain with nonnegative weights, parameter and configuration", "why_tests_cant": "all samples, smoothing widths, powers and statistics", "anchors": ["src/chainconsumer/plotting/contours.py:plot_dist", "src/chainconsumer/plotter.py:Plotter._plot_bars"]}
{"id": "C86", "title": "What the panels of plot_walks show", "statement": "From top to bottom there are a panel of the log posterior relative to its maximum (if asked for and if some chain has one), a panel of the weights or of their decadic logarithms (if asked for), and one panel per column, each with its label; each shows every chain that has the values. Every point stands at its step in the chain, and no walk has more than 100000 points. (The code violates both: of 200000 samples or more every n-th is kept and the kept ones are renumbered, and walks of 100001 to 199999 samples are not thinned.)", "quantifier": "every consumer, configuration and request", "why_tests_cant": "all lengths of chains", "anchors": ["src/chainconsumer/plotter.py:Plotter.plot_walks", "src/chainconsumer/plotter.py:Plotter._plot_walk"]}
{"id": "C87", "title": "Truths are kept and drawn in their own style", "statement": "After any sequence of calls a consumer holds exactly the truths added, in order. On every panel of plot, plot_walks, plot_summary and plot_distributions one truth after another is drawn, each line with the truth's line style, colour, width, opacity and layer, each marker with its shape, size, colour, opacity and layer, and with edges exactly for filled markers (edge colour, by default the colour).", "quantifier": "every history of calls, list of truths and figure", "why_tests_cant": "all histories and styles", "anchors": ["src/chainconsumer/truth.py:Truth", "src/chainconsumer/chainconsumer.py:ChainConsumer.add_truth", "src/chainconsumer/plotting/truth.py:plot_truths", "src/chainconsumer/plotter.py:Plotter.plot", "src/chainconsumer/plotter.py:Plotter.plot_walks", "src/chainconsumer/plotter.py:Plotter.plot_summary", "src/chainconsumer/plotter.py:Plotter.plot_distributions"]}
{"id": "C90", "title": "The quadrature of marginals integrates parabolas exactly", "statement": "The quadrature that normalises kernel density estimates and the densities of multimodal chains gives the integral of every parabola, for odd and even numbers of points from three on, and of straight lines for two points; a density that is a parabola on the grid integrates to 1 after the division.", "quantifier": "every parabola, interval and number of points", "why_tests_cant": "all numbers of points and ranges", "anchors": ["src/chainconsumer/analysis.py:Analysis._get_smoothed_histogram", "src/chainconsumer/analysis.py:Analysis.get_parameter_hdi_intervals"]}
{"id": "C91", "title": "Requests mean what the documentation says", "statement": "The chains shown are those asked for (all if none are asked for), in order and without those that have nothing to draw: chains can be given by name, by index or by themselves, one or several; columns by a list or by the number of the first ones. Unknown chains raise. (The code violates this: a single chain given by name, index or itself is ignored and all chains are shown; an index in a list and a number of columns raise.)", "quantifier": "every registry and request", "why_tests_cant": "all requests", "anchors": ["src/chainconsumer/plotter.py:Plotter._sanitise_chains", "src/chainconsumer/plotter.py:Plotter._sanitise_columns", "src/chainconsumer/plotter.py:Plotter._sanitise"]}
{"id": "C92", "title": "Sizes of walks, distributions and summaries", "statement": "A pair is the size itself and a number scales the default size. plot_walks is 8 inches wide and 0.75 inches plus one inch per panel high; plot_distributions has the least rows of at most col_wrap panels of 2.5 inches; plot_summary has one row of 0.8 (with error bars 0.5) inches per chain times the ratio, margins of 0.3 and 0.2 inches, and a column as wide as its texts need. (The code violates this: in plot_walks a number is the side of a square.)", "quantifier": "every size, number of columns and chains", "why_tests_cant": "all sizes", "anchors": ["src/chainconsumer/plotter.py:Plotter.plot_walks", "src/chainconsumer/plotter.py:Plotter.plot_distributions", "src/chainconsumer/plotter.py:Plotter.plot_summary"]}
{"id": "C93", "title": "Colour bars say what the colours of clouds mean", "statement": "A figure of plot has exactly one colour bar per column that colours a cloud in it, labelled like the column (weight, log_weight and posterior spelled out). Its map of colours and its scale, from the least to the greatest value shown, are those of every cloud coloured by the column. (The code violates this: if two chains are coloured by the same column, the bar has the scale of one of them.)", "quantifier": "every figure that can be drawn", "why_tests_cant": "all chains, columns and values", "anchors": ["src/chainconsumer/plotter.py:Plotter.plot", "src/chainconsumer/plotting/contours.py:plot_surface", "src/chainconsumer/plotting/contours.py:plot_cloud"]}
{"id": "C94", "title": "Watermarks run along the diagonal and stay inside", "statement": "The watermark stands in the middle of the figure, turned to its falling diagonal. Its font size is the greatest whole number for which the turned text covers at most a fixed share of the width of the figure, and it stays inside. (The code violates the last: in figures wider than high it can be higher than the figure.)", "quantifier": "every positive size of figure, resolution and extent of text", "why_tests_cant": "all sizes", "anchors": ["src/chainconsumer/plotting/watermark.py:add_watermark", "src/chainconsumer/plotter.py:Plotter.plot"]}
{"id": "C95", "title": "Settings of matplotlib are those of the configuration and can be restored", "statement": "Right after a plot, TeX and serif letters are as the configuration says that was given to the consumer last (the default otherwise); None leaves a setting alone. restore_rc_params gives back the settings that the first plot of the consumer found. (The code violates the last: it sets the values at the creation of the consumer, so that choices made after it are lost, and two consumers restored in the order of their creation leave the serif letters.)", "quantifier": "every history of consumers, configurations, plots, choices of the user and restorations", "why_tests_cant": "all histories", "anchors": ["src/chainconsumer/plotter.py:Plotter.__init__", "src/chainconsumer/plotter.py:Plotter.config", "src/chainconsumer/plotter.py:Plotter.set_rc_params", "src/chainconsumer/plotter.py:Plotter.restore_rc_params", "src/chainconsumer/chainconsumer.py:ChainConsumer.set_plot_config"]}
{"id": "C96", "title": "Keywords for legends, watermarks and files are passed on", "statement": "Every keyword given for the legend or the watermark reaches it as given and the others have their defaults; every file asked for is written, in order, with the configured resolution. (The code violates this for the rotation and the font size of watermarks, which are always the computed ones.)", "quantifier": "every dictionary of keywords and list of files", "why_tests_cant": "all keywords", "anchors": ["src/chainconsumer/plotting/config.py:PlotConfig.legend_kwargs_final", "src/chainconsumer/plotting/config.py:PlotConfig.watermark_text_kwargs_final", "src/chainconsumer/plotter.py:Plotter.plot", "src/chainconsumer/plotter.py:Plotter._save_fig", "src/chainconsumer/plotting/watermark.py:add_watermark"]}
{"id": "C97", "title": "Chains of other programs have one row per draw", "statement": "A chain made from a mean and a covariance has a million rows, whose k-th column is the k-th coordinate of the draws, and exactly one name per coordinate is accepted. A chain made from arviz data or a numpyro run has one column per selected variable, in the order of the source, and one row per draw, chain after chain. (The code violates this for numpyro runs with vectors: their components are laid out below each other as if they were draws.)", "quantifier": "every run, selection and number of chains, draws and components", "why_tests_cant": "all runs", "anchors": ["src/chainconsumer/chain.py:Chain.from_covariance", "src/chainconsumer/chain.py:Chain.from_numpyro", "src/chainconsumer/chain.py:Chain.from_arviz", "src/chainconsumer/chain.py:_filter_var_names"]}
{"id": "C98", "title": "Panels of plot fill the figure without overlap", "statement": "The figure of plot has one row and one column of panels for every parameter (one fewer without histograms). The panels lie in the figure, do not overlap, have equal gaps of 5 % of their size times the configured spacing, and fill the figure from the left margin to 95 % of the width and from the bottom margin to 90 % of the height. They have equal sizes, except that the flipped figure of two parameters has sizes three to one. The margins are 0.85 inches, but between 10 % and 30 % of the figure.", "quantifier": "every number of parameters, configuration and figure size", "why_tests_cant": "all sizes and numbers of panels", "anchors": ["src/chainconsumer/plotter.py:Plotter._get_triangle_figure"]}
{"id": "C99", "title": "Truths may be given as dictionaries or Series", "statement": "The location of a truth is documented to be a dictionary or a pandas Series, which is converted to a dictionary: both give the same location. A dictionary is accepted exactly if its keys are text and its values numbers. (The code violates the part on Series: they are rejected.)", "quantifier": "every dictionary and every Series", "why_tests_cant": "all contents", "anchors": ["src/chainconsumer/truth.py:Truth._ensure_dict"]}
{"id": "C100", "title": "Labels show the factors and offsets of their ticks", "statement": "Wherever matplotlib finds a common factor or offset of tick labels in a figure of plot, the label of the axis is the label of the parameter along it, followed by the factor or offset in brackets; the other labels are the labels of their parameters. (The code violates the last part: it appends a blank.)", "quantifier": "every figure and every assignment of offsets to axes with ticks", "why_tests_cant": "all figures and all offsets", "anchors": ["src/chainconsumer/plotter.py:Plotter.plot", "src/chainconsumer/plotter.py:Plotter._get_triangle_figure"]}
{"id": "C101", "title": "The shaded part of a histogram is the interval of the summary", "statement": "Wherever plot, plot_distributions or plot_summary draw the histogram of a chain with bar_shade, the interval that get_summary reports for the parameter is shaded under the curve as far as the curve goes, or each of the intervals if it reports several; nothing else is shaded, nothing at all if an end of the interval is missing, and nothing without bar_shade.", "quantifier": "every figure of chains with positive weights (every accepted chain without shift_params), every statistic and configuration (real arithmetic)", "why_tests_cant": "all chains and configurations", "anchors": ["src/chainconsumer/plotter.py:Plotter._plot_bars", "src/chainconsumer/analysis.py:Analysis.get_summary", "src/chainconsumer/analysis.py:Analysis.get_parameter_multimodal_bounds"]}
{"id": "C102", "title": "Comparisons and covariances do not depend on row order or weight normalisation", "statement": "Giving chains their rows in another order, or multiplying their weights by a positive constant, changes no AIC, BIC or DIC, no covariance and no correlation matrix, and no error. (The code violates this for the DIC: of several samples nearest to the mean it takes one by position, even if their log posteriors differ.)", "quantifier": "every accepted chain, every order of its rows, every positive constant and every choice of columns other than the weights", "why_tests_cant": "all orders and constants", "anchors": ["src/chainconsumer/comparisons.py:aic", "src/chainconsumer/comparisons.py:bic", "src/chainconsumer/comparisons.py:dic", "src/chainconsumer/chain.py:Chain.get_covariance", "src/chainconsumer/chain.py:Chain.get_correlation"]}
{"id": "C103", "title": "A parameter that is summarised can be drawn", "statement": "Whenever get_summary reports a parameter of a chain and the curve of its histogram can be computed, the histogram is drawn with its shading and title, without an error. (The code violates this without smoothing: the intervals of HDI and multimodal summaries come from a range wider by 20 percent on both sides than the bins of the curve; where they reach beyond the curve the interpolator raises a ValueError.)", "quantifier": "every chain with positive weights, every statistic, smoothing, KDE and configuration, with and without a title (for limits that are not both zero, C42), real arithmetic", "why_tests_cant": "all chains and configurations", "anchors": ["src/chainconsumer/plotter.py:Plotter._plot_bars", "src/chainconsumer/analysis.py:Analysis.get_parameter_hdi_intervals", "src/chainconsumer/helpers.py:get_extents"]}
{"id": "C104", "title": "Colours may be given as numbers", "statement": "A colour given as a list or array of numbers is accepted exactly if it has three or four entries, all from 0 to 1, and is otherwise rejected with a validation error; the chain then has the hex colour whose channels are nearest to 255 times the first three numbers.", "quantifier": "every list of numbers, in exact arithmetic", "why_tests_cant": "all lists of numbers", "anchors": ["src/chainconsumer/color_finder.py:Colors.format", "src/chainconsumer/chain.py:ChainConfig._convert_color", "src/chainconsumer/chain.py:Chain._validate_color"]}
{"id": "C105", "title": "Default colours and colours of colour maps are valid", "statement": "get_default gives eleven distinct hex colours, the ones the first eleven chains without a colour get. get_colormap gives as many hex colours as asked for: those of the map at evenly spaced places from 0.05 to 0.9, with a brightness that is 1 at both ends, falls evenly to the given scale in the middle and is symmetric. (The code violates this for negative scales: the colours come without the leading number sign.)", "quantifier": "every colour map with channels from 0 to 1, every number of colours and every scale", "why_tests_cant": "all colour maps, numbers and scales", "anchors": ["src/chainconsumer/color_finder.py:Colors.get_default", "src/chainconsumer/color_finder.py:Colors.get_colormap", "src/chainconsumer/color_finder.py:Colors.scale_colour"]}
{"id": "C106", "title": "Example samples are reproducible chains", "statement": "make_sample gives num_points rows of num_dimensions columns named A, B, ... drawn with a valid correlation matrix, together with their log posterior; the table makes a chain whose parameters are these columns, with unit weights and a recognised posterior; the same seed gives the same samples. (The code violates this: scipy draws the rows from numpy's global random state, not from the seeded generator, and asking for one row raises a ValueError.)", "quantifier": "every seed, random state, number of dimensions (at most 50000, the range of single characters) and number of points", "why_tests_cant": "all seeds, dimensions and numbers of points", "anchors": ["src/chainconsumer/examples.py:make_sample", "src/chainconsumer/chain.py:Chain.__init__"]}
{"id": "C107", "title": "Greater areas give wider summaries", "statement": "Raising summary_area never moves a limit of a summary inwards and leaves the centre of cumulative, max and max_central summaries where it is; every mode of a multimodal summary lies inside a mode of the summary with the greater area; an HDI interval does not become narrower. (The code violates this for HDI intervals of parameters in very small units: candidates at most 1e-12 wide are skipped, so a small area can end with the whole range.)", "quantifier": "every accepted chain, statistic, parameter and pair of areas, real arithmetic", "why_tests_cant": "all chains and pairs of areas", "anchors": ["src/chainconsumer/analysis.py:Analysis.get_parameter_summary_max", "src/chainconsumer/analysis.py:Analysis.get_parameter_summary_hdi", "src/chainconsumer/analysis.py:Analysis.get_parameter_hdi_intervals", "src/chainconsumer/analysis.py:Analysis.get_parameter_summary_cumulative"]}
{"id": "C108", "title": "Marginals count nearly all samples", "statement": "The bins from which a marginal is computed, and with it the summary of a parameter, leave out at most a small share of the weight: the two tails of 1e-5 and what lies in the same of 2000 equal cells as their ends. (The code violates this: get_extents normalises the cumulative histogram so that the lowest cell has the value 0; without padding all samples of the lowest cell and those in the upper half of the highest one are left out, whatever their weight, for example 96 percent of the samples at a boundary.)", "quantifier": "every chain that is not on a grid, with positive weights, every parameter that is not constant, with padding or not, real arithmetic", "why_tests_cant": "all chains and parameters", "anchors": ["src/chainconsumer/helpers.py:get_extents", "src/chainconsumer/helpers.py:get_smoothed_bins", "src/chainconsumer/analysis.py:Analysis._get_smoothed_histogram"]}
{"id": "C109", "title": "Summaries stay among the samples", "statement": "Every number reported for a parameter, lower and upper limits and centres, modes included, lies between the least and the greatest sample of that parameter, so that for example a parameter that is never negative gets no negative limit. (The code violates this for the statistic HDI, and with it for multimodal chains: their marginals are computed on a range padded by a fifth on either side, into which the interpolated density extends. Limits are at most a fifth of the range outside.)", "quantifier": "every chain with positive weights, every parameter that has a summary, every statistic and setting, real arithmetic", "why_tests_cant": "all chains, statistics and settings", "anchors": ["src/chainconsumer/analysis.py:Analysis.get_summary", "src/chainconsumer/analysis.py:Analysis.get_parameter_summary_hdi", "src/chainconsumer/helpers.py:get_extents"]}
{"id": "C110", "title": "The text of a parameter table reads as the table", "statement": "The text returned by get_latex_table is a tabular whose lines, split at the ampersands as LaTeX splits them, are the header and one line per row of the table, with the cells of the table in order, as many as the tabular declares columns. (The code violates this for names with an ampersand such as 'SN & BAO': names and labels are not escaped, and the line gets more cells than there are columns.)", "quantifier": "every list of chains, request of chains and columns, labels, blinding, fill text, orientation and rules, for captions and labels without percent signs (C44)", "why_tests_cant": "all chains, names and requests", "anchors": ["src/chainconsumer/analysis.py:Analysis.get_latex_table", "src/chainconsumer/helpers.py:get_latex_table_frame"]}
{"id": "C111", "title": "Summaries of chains given as objects follow the configuration", "statement": "get_summary(chains=[...]) reports for registered chains given as objects what it reports for the same chains if they are not given, in particular with the settings of the global override (C03). (The code violates this: given chains are used as they are, and the override, even of the statistic, is not looked at.)", "quantifier": "every registry, override, list of registered chains and list of columns", "why_tests_cant": "all registries and overrides", "anchors": ["src/chainconsumer/analysis.py:Analysis.get_summary", "src/chainconsumer/chainconsumer.py:ChainConsumer._get_final_chains"]}
{"id": "C112", "title": "An override acts like the same settings on every chain", "statement": "Plots, tables and summaries of chains with a global override are the same as those of the chains constructed with the settings of the override in addition. (The code violates this: the override bypasses the checks and the shift of the constructor, so that multimodal without HDI is not refused and shift_params moves nothing, and automatic settings are chosen from show_contour_labels and plot_contour before they are overridden.)", "quantifier": "every registry of accepted chains and every override", "why_tests_cant": "all chains and overrides", "anchors": ["src/chainconsumer/chainconsumer.py:ChainConsumer.set_override", "src/chainconsumer/chainconsumer.py:ChainConsumer._get_final_chains", "src/chainconsumer/chain.py:ChainConfig._apply", "src/chainconsumer/chain.py:Chain._validate_model"]}
{"id": "C113", "title": "Messages name what is missing", "statement": "aic(), bic() and dic() issue exactly one message for each chain without an entry, in order, naming the chain and exactly what it lacks. get_summary warns exactly about HDIs of at most 512 samples and about maxima without limits, naming parameter and chain. The Gelman-Rubin test logs a line for each parameter of each chain, and passes exactly if every line says so. max_posterior_row warns exactly if the chain has no posterior.", "quantifier": "every registry, request and threshold for which the call returns", "why_tests_cant": "all registries and chains", "anchors": ["src/chainconsumer/comparisons.py:Comparison.aic", "src/chainconsumer/comparisons.py:Comparison.bic", "src/chainconsumer/comparisons.py:Comparison.dic", "src/chainconsumer/analysis.py:Analysis.get_parameter_summary_hdi", "src/chainconsumer/analysis.py:Analysis.get_parameter_summary_max", "src/chainconsumer/diagnostic.py:Diagnostic.gelman_rubin", "src/chainconsumer/chain.py:Chain.max_posterior_row"]}
{"id": "C114", "title": "Contours do not depend on row order, weight normalisation, units or origin", "statement": "The contours that a chain draws for two parameters do not change if the rows of the chain are reordered, or all weights are multiplied by the same positive number; if a parameter is measured in another unit or from another origin, they move with it and keep their values and levels. Empty cells lie outside of all filled ones. (The code violates this for small weights: empty cells of the histogram, which is not normalised, are set to 1e-16, so that with weights like 1e-17 the contours enclose the empty cells before the filled ones.)", "quantifier": "every accepted chain, pair of parameters, permutation of rows, positive factor and affine map, real arithmetic", "why_tests_cant": "all chains, permutations, factors and maps", "anchors": ["src/chainconsumer/plotting/contours.py:plot_contour", "src/chainconsumer/plotting/contours.py:_convert_to_stdev", "src/chainconsumer/helpers.py:get_smoothed_histogram2d"]}
{"id": "C115", "title": "Error bars of plot_summary are the reported summaries", "statement": "With errorbar=True every cell of plot_summary shows the summary that get_summary reports for its chain and parameter: a point at the centre with arms reaching from the lower to the upper limit, one bar for every mode, and none for summaries without limits and parameters the chain does not have. (The code violates this for max_central, whose centre may lie outside of its limits, so that the arms, which are absolute differences, start elsewhere, and for several modes, for which one bar is drawn across the gap between them.)", "quantifier": "every list of chains with positive weights, columns, truths and settings, real arithmetic", "why_tests_cant": "all chains, statistics and settings", "anchors": ["src/chainconsumer/plotter.py:Plotter.plot_summary", "src/chainconsumer/analysis.py:Analysis.get_parameter_summary", "src/chainconsumer/analysis.py:Analysis.get_summary"]}
{"id": "C116", "title": "What is reported or drawn of a chain are its parameters", "statement": "Every column that get_summary (asked for no list of columns), parameter tables, plot, plot_distributions and plot_summary report or draw for a chain is one of its parameters: never its weights or its posteriors. (The code violates this for chains whose weights or posteriors bear the name of a parameter of another chain: get_summary, tables and the histograms of plot only ask whether the table has a column of that name, and summarise or draw the weights.)", "quantifier": "every list of chains, truths, settings and, for the figures, columns for which the call returns", "why_tests_cant": "all chains, names and requests", "anchors": ["src/chainconsumer/analysis.py:Analysis.get_summary", "src/chainconsumer/analysis.py:Analysis.get_latex_table", "src/chainconsumer/plotter.py:Plotter.plot", "src/chainconsumer/plotter.py:Plotter.plot_distributions", "src/chainconsumer/plotter.py:Plotter.plot_summary", "src/chainconsumer/plotting/contours.py:plot_surface"]}
{"id": "C117", "title": "A table of chosen parameters needs and shows just these", "statement": "get_latex_table(columns=...) makes a table of the parameters asked for that are not blinded: a cell shows the summary that get_summary reports if asked for that parameter, or the fill text if the chain does not have it; and it returns whenever these summaries exist. (The code violates both: it summarises all plotted parameters of all chains first, so that a parameter that is not asked for or is blinded and has no summary, such as a constant, makes every table fail; and the parameter that colours a cloud gets the fill text though the chain has it.)", "quantifier": "every registry, request of chains and columns, blinding and orientation", "why_tests_cant": "all registries and requests", "anchors": ["src/chainconsumer/analysis.py:Analysis.get_latex_table", "src/chainconsumer/analysis.py:Analysis.get_summary", "src/chainconsumer/chain.py:Chain.plotting_columns"]}
{"id": "C118", "title": "The power of a chain reshapes its distribution", "statement": "A chain with another power p is shown and summarised with the p-th power of its density everywhere: the surface of its contours, its marginal in plot and plot_distributions, the curve of plot_dist and the curve its intervals are read from are the p-th powers of what they are for power 1; and a larger power tightens contours: every cell lies in no smaller a part of the distribution that is enclosed before it. (The code violates this: with a KDE the marginals of plot and plot_distributions and all summaries ignore the power, though contours and plot_dist use it; with smoothing the power is taken before smoothing; and as 1e-16 is added to empty cells only, a power can make empty cells denser than filled ones, which contours then enclose first.)", "quantifier": "every chain without smoothing or with a KDE, every power p >= 0, real arithmetic", "why_tests_cant": "all chains and powers; the exception depends on the magnitude of weights", "anchors": ["src/chainconsumer/helpers.py:get_smoothed_histogram2d", "src/chainconsumer/analysis.py:Analysis._get_smoothed_histogram", "src/chainconsumer/plotter.py:Plotter._plot_bars", "src/chainconsumer/plotting/contours.py:plot_dist", "src/chainconsumer/plotting/contours.py:plot_contour"]}
{"id": "C119", "title": "Geweke's diagnostic rejects drifting chains, whatever the units", "statement": "The verdict of geweke does not depend on the units or the origin of a parameter nor on the order of the walkers, and a chain passes only if the means of its first and last parts are close in units of their standard errors: there is a bound that the z scores of chains that pass do not exceed in all walkers. (The code violates the last part: it asks whether the z scores have the shape of a normal distribution, by their skewness and kurtosis, which are the same whatever is added to all of them; chains pass however far they drift. It also rejects short chains: with first=0.1 all of fewer than 30 steps per walker, and of fewer than 40 unless the first and third step of every walker agree, as the spectral densities of such windows are NaN.)", "quantifier": "every accepted chain, all windows, thresholds and z scores; real arithmetic", "why_tests_cant": "all chains and magnitudes of drift", "anchors": ["src/chainconsumer/diagnostic.py:Diagnostic.geweke", "src/chainconsumer/diagnostic.py:Diagnostic._spec"]}
{"id": "C120", "title": "A weighted sample may be given as several samples sharing its weight", "statement": "A sample of weight w stands for the same information as several equal samples whose weights add up to w. If the samples of a chain are given that way, in any order, summaries, contours, AIC, BIC, DIC, covariances and correlations do not change. (The code violates this for covariances, whose normalisation depends on how many samples share the weight - the weights are used as reliability weights; for KDEs, whose bandwidth depends on that number; and, unless bins is set, for chains of more than 36**4 rows per column, whose number of bins grows with the rows.)", "quantifier": "every accepted chain and every way of sharing out the weights of its samples, real arithmetic", "why_tests_cant": "all chains, numbers of copies and weights", "anchors": ["src/chainconsumer/helpers.py:get_extents", "src/chainconsumer/helpers.py:get_bins", "src/chainconsumer/helpers.py:get_smoothed_histogram2d", "src/chainconsumer/analysis.py:Analysis._get_smoothed_histogram", "src/chainconsumer/comparisons.py:Comparison.dic", "src/chainconsumer/chain.py:Chain.get_covariance", "src/chainconsumer/kde.py:MegKDE"]}
{"id": "C121", "title": "Diagnostics judge weighted chains", "statement": "A chain that passes gelman_rubin has walkers whose weighted means are close in units of their weighted standard deviations; the verdict depends neither on the order of the walkers or of the steps of a walker nor on units and origin of a parameter. (The code violates the first part for weighted chains: neither gelman_rubin nor geweke looks at the weights, so that walkers with weighted means arbitrarily far apart pass. For means and variances without weights it is proved, with an explicit bound.)", "quantifier": "every accepted chain of several walkers and steps, every threshold; real arithmetic", "why_tests_cant": "all chains, weights and permutations", "anchors": ["src/chainconsumer/diagnostic.py:Diagnostic.gelman_rubin", "src/chainconsumer/diagnostic.py:Diagnostic.geweke", "src/chainconsumer/chain.py:Chain.data_samples"]}
{"id": "C122", "title": "Points and truths are drawn inside the axes", "statement": "In plot, the maximum posterior point of a shown chain and the value of a truth lie within the ranges of the axes they are drawn on, unless a range is configured for the parameter. (The code violates this: the range of a chain with contours or a cloud ends short of its smallest and largest samples, so that a maximum posterior point there is not visible, and truths are not considered for ranges at all. Proved for the points of chains without contours and cloud, as those of add_marker, for grids, and for points well inside of the samples.)", "quantifier": "every figure of plot, every shown chain and truth; real arithmetic", "why_tests_cant": "all samples, weights and truths", "anchors": ["src/chainconsumer/plotter.py:Plotter._get_parameter_extents", "src/chainconsumer/plotter.py:Plotter.plot", "src/chainconsumer/helpers.py:get_extents", "src/chainconsumer/plotting/contours.py:plot_point", "src/chainconsumer/plotting/truth.py:plot_truths"]}
{"id": "C123", "title": "A panel does not depend on which other parameters are plotted", "statement": "Two figures of the same chains with the same settings that ask for different columns show the same in the panels they share: the same curves, clouds, contours, points, truths, scales and ranges for a pair of parameters, for a histogram, for a marginal distribution, for a walk, and for a cell of a summary.", "quantifier": "for all chains, settings, truths, and any two lists of requested columns that both contain the parameters of the panel, at whatever place", "why_tests_cant": "The range of a parameter, its blinding and its panel are computed inside loops over all requested columns, with counters and dictionaries shared between the columns; a test compares a figure with a stored image of it, not with another figure that asks for other columns.", "anchors": ["src/chainconsumer/plotter.py:Plotter.plot", "src/chainconsumer/plotter.py:Plotter.plot_walks", "src/chainconsumer/plotter.py:Plotter.plot_distributions", "src/chainconsumer/plotter.py:Plotter.plot_summary", "src/chainconsumer/plotter.py:Plotter._sanitise"]}
{"id": "C124", "title": "Chains keep their look and stay apart when chains are added or removed", "statement": "Adding a chain or a marker to a consumer, or removing one, leaves the colour and all other settings with which the remaining chains are drawn as they were, besides the shading that depends on how many chains draw contours; and a chain without a colour is not drawn in the colour of another chain.", "quantifier": "for all consumers, chains, markers, overrides, and positions of the chain that is removed, with at most 88 chains without a colour", "why_tests_cant": "Automatic colours are drawn from one iterator while looping over all chains, so the look of a chain depends on the chains before it; the tests that exist look at consumers as they are built, not at the same consumer before and after a change.", "anchors": ["src/chainconsumer/chainconsumer.py:ChainConsumer._get_final_chains", "src/chainconsumer/chainconsumer.py:ChainConsumer.add_chain", "src/chainconsumer/chainconsumer.py:ChainConsumer.add_marker", "src/chainconsumer/chainconsumer.py:ChainConsumer.remove_chain", "src/chainconsumer/color_finder.py:Colors.next_colour"]}
{"id": "C125", "title": "Chains are stacked by their zorder", "statement": "On every panel, what belongs to the chain with the greater zorder - or to the later chain, if their zorders are equal - is drawn over all that belongs to the other; and truths are drawn over all chains by default.", "quantifier": "for all panels of all figures of plot, plot_distributions and plot_walks, and any two chains with different names on them", "why_tests_cant": "Clouds, filled contours, lines, labels and points are drawn with different offsets to the zorder, walks with none; which of two chains hides the other is not looked at by any test, and image comparisons use the default zorders.", "anchors": ["src/chainconsumer/plotting/contours.py:plot_cloud", "src/chainconsumer/plotting/contours.py:plot_contour", "src/chainconsumer/plotting/contours.py:plot_point", "src/chainconsumer/plotter.py:Plotter._plot_bars", "src/chainconsumer/plotter.py:Plotter._plot_walk", "src/chainconsumer/plotting/truth.py:plot_truths", "src/chainconsumer/truth.py:Truth._kwargs"]}
{"id": "C126", "title": "A chain is drawn in the same way whatever is drawn with it", "statement": "On panels of the same parameters, what figures draw for a chain - its clouds, contours, points, curves, shading, walks and error bars - does not depend on which other chains, parameters and truths the figures show; and the title over a histogram does not depend on chains for which no histogram is drawn.", "quantifier": "for all pairs of figures of plot, plot_distributions, plot_walks or plot_summary that show the same chain, with any other chains of other names, columns and truths", "why_tests_cant": "That a chain is drawn in the same way in all company is a statement on pairs of figures; the image tests look at one figure at a time.", "anchors": ["src/chainconsumer/plotter.py:Plotter.plot", "src/chainconsumer/plotter.py:Plotter.plot_distributions", "src/chainconsumer/plotter.py:Plotter.plot_walks", "src/chainconsumer/plotter.py:Plotter.plot_summary", "src/chainconsumer/plotter.py:Plotter._plot_bars", "src/chainconsumer/plotting/contours.py:plot_surface"]}
{"id": "C127", "title": "How two models compare does not depend on the other chains", "statement": "aic(), bic() and dic() report values relative to the best chain of the consumer; the difference between the values of two chains is the same whatever other chains are registered, and if the best chain is the same in two consumers, so are the values of all chains they share.", "quantifier": "for all pairs of registries with distinct names that share two chains eligible for the criterion, all other chains arbitrary", "why_tests_cant": "Model comparisons are quoted as differences; that they survive the addition of any further model is a statement on all pairs of registries.", "anchors": ["src/chainconsumer/comparisons.py:Comparison.aic", "src/chainconsumer/comparisons.py:Comparison.bic", "src/chainconsumer/comparisons.py:Comparison.dic"]}
{"id": "C128", "title": "Models compare the same in any units", "statement": "Giving one parameter of one chain in other units, with another origin or with the opposite sign changes neither the AIC, BIC nor DIC comparison; it moves the maximum posterior point along, multiplies covariances by the two factors and correlations by the two signs.", "quantifier": "all registries, chain names, parameters, factors a and offsets b (for correlations a \u2260 0); covariances and correlations for any factors of all columns at once; DIC for AcceptedNoShift chains", "why_tests_cant": "tests fix one set of parameters in one unit; nobody reruns a comparison with a parameter in kilometres", "anchors": ["src/chainconsumer/comparisons.py:ModelComparison.dic", "src/chainconsumer/comparisons.py:ModelComparison.aic", "src/chainconsumer/comparisons.py:ModelComparison.bic", "src/chainconsumer/chain.py:Chain.get_max_posterior_point", "src/chainconsumer/chain.py:Chain.get_covariance", "src/chainconsumer/chain.py:Chain.get_correlation"]}
{"id": "C129", "title": "The sign convention of a parameter does not matter", "statement": "Replacing a parameter x by -x replaces its summary (lower, centre, upper) by (-upper, -centre, -lower), its range likewise, and its text by the same digits with the errors exchanged and the sign changed; zero is written without a sign.", "quantifier": "every accepted grid chain without KDE whose parameter takes evenly spaced values, any weights, smoothing and power, statistics cumulative, mean, max_central and hdi; text for all limits in any ordered field", "why_tests_cant": "tests fix one orientation of each parameter, and compare limits with tolerances far above a step of the fine grid", "anchors": ["src/chainconsumer/analysis.py:Analysis._get_smoothed_histogram", "src/chainconsumer/analysis.py:Analysis.get_parameter_summary_cumulative", "src/chainconsumer/analysis.py:Analysis.get_parameter_summary_mean", "src/chainconsumer/analysis.py:Analysis.get_parameter_summary_max_central", "src/chainconsumer/analysis.py:Analysis.get_parameter_summary_hdi", "src/chainconsumer/analysis.py:Analysis._format_single_bound", "src/chainconsumer/helpers.py:get_extents"]}
{"id": "C130", "title": "Symmetric distributions have symmetric summaries", "statement": "If the weighted samples of a parameter are symmetric about s, then s is its reported median, the centre of its mean summary and the middle of its equal-tailed interval; if the distribution has one peak, s is also the reported maximum and the middle of the intervals of the statistics max and hdi.", "quantifier": "every accepted grid chain without KDE whose parameter takes evenly spaced values, any symmetric weights, smoothing and power; statistics cumulative, mean, max_central, max and hdi", "why_tests_cant": "tests compare medians of random samples with tolerances of a percent; the bias is half a 9999th of the range", "anchors": ["src/chainconsumer/analysis.py:Analysis._get_smoothed_histogram", "src/chainconsumer/analysis.py:Analysis.get_parameter_summary_cumulative", "src/chainconsumer/analysis.py:Analysis.get_parameter_summary_mean", "src/chainconsumer/analysis.py:Analysis.get_parameter_summary_max_central"]}
{"id": "C131", "title": "The names of parameters carry no meaning", "statement": "If parameters are called by other (distinct) names, the same chains are accepted, and every report - summaries, covariances, best point, information criteria, convergence tests, contour densities - and every figure, if shown under the same labels, is the same with the names replaced.", "quantifier": "every table, settings and change of names that is injective and fixes the weight and posterior columns; every chain, list of chains and list of columns", "why_tests_cant": "tests use a handful of names; the effect needs the right name, in any capitalisation", "anchors": ["src/chainconsumer/chain.py:Chain.data_columns", "src/chainconsumer/chain.py:Chain._validate_model", "src/chainconsumer/analysis.py:Analysis.get_summary", "src/chainconsumer/chain.py:Chain.get_covariance", "src/chainconsumer/chain.py:Chain.get_max_posterior_point", "src/chainconsumer/comparisons.py:Comparison.dic", "src/chainconsumer/helpers.py:get_smoothed_histogram2d"]}
{"id": "C132", "title": "The order of the columns of a table carries no meaning", "statement": "If the columns of a table are given in another order, the same chains are accepted, and every report - summaries, covariances, best point, information criteria, convergence tests, contour densities - is the same up to the order in which parameters are listed.", "quantifier": "every well-formed table, every permutation of its columns and all settings; every chain, list of chains and list of columns", "why_tests_cant": "tests build each table in one order; the failing case needs the weights in front, equal weights and shift_params together", "anchors": ["src/chainconsumer/chain.py:Chain._validate_model", "src/chainconsumer/analysis.py:Analysis.get_summary", "src/chainconsumer/chain.py:Chain.get_covariance", "src/chainconsumer/chain.py:Chain.get_max_posterior_point", "src/chainconsumer/comparisons.py:Comparison.dic", "src/chainconsumer/diagnostic.py:Diagnostic.geweke", "src/chainconsumer/helpers.py:get_smoothed_histogram2d"]}
{"id": "C133", "title": "The order in which chains are added carries no meaning", "statement": "If chains are added in another order, the same are accepted, each has the same settings, and every report - summaries, criteria, comparison table, best points, diagnostics, ranges - is the same up to the order in which chains and parameters are listed, and so is every figure up to the order of drawing.", "quantifier": "every set of chain objects, every state of a consumer, every permutation of the chains added, every override, kernel estimate and list of columns", "why_tests_cant": "tests add chains in one order and never compare two", "anchors": ["src/chainconsumer/chainconsumer.py:ChainConsumer.add_chain", "src/chainconsumer/chainconsumer.py:ChainConsumer._get_final_chains", "src/chainconsumer/analysis.py:Analysis.get_summary", "src/chainconsumer/analysis.py:Analysis.get_max_posteriors", "src/chainconsumer/comparisons.py:Comparison.comparison_table", "src/chainconsumer/diagnostic.py:Diagnostic.gelman_rubin", "src/chainconsumer/plotter.py:Plotter._get_parameter_extents"]}
{"id": "C134", "title": "The walkers of a divided chain add up to the chain", "statement": "What is reported for a chain follows from what is reported for the chains that divide() returns: means and covariances by the law of total covariance with the weights of the walkers, AIC and BIC as those of the best walker, the verdict of gelman_rubin (equal weights) from the reported variances, and the best point as that of the best walker. (The code violates the last part: asking a walker besides the first for its best point raises.)", "quantifier": "every accepted chain with more than one walker, neither a grid nor made with shift_params; all columns, all weights (equal weights for gelman_rubin), all thresholds", "why_tests_cant": "tests divide one chain and look at the names and lengths of the parts; the relations between the reports of the parts and of the whole are never compared", "anchors": ["src/chainconsumer/chain.py:Chain.divide", "src/chainconsumer/chain.py:Chain.get_covariance", "src/chainconsumer/comparisons.py:Comparison.aic", "src/chainconsumer/comparisons.py:Comparison.bic", "src/chainconsumer/diagnostic.py:Diagnostic.gelman_rubin", "src/chainconsumer/chain.py:Chain.get_max_posterior_point"]}
{"id": "C135", "title": "The names of chains carry no meaning", "statement": "If chains get other names, different names staying different, then whatever is reported is the same under the new names: the registry accepts and finds the same chains, the settings filled in, the chains constructed, divide(), the summaries, AIC, BIC and DIC, best points, both diagnostics and the comparison table follow. (The code violates it for names that divide() makes up and for names with an ampersand in the table.)", "quantifier": "all registries and heaps of chains, all injective changes of names, all columns, thresholds and options; for the table every formatter of numbers", "why_tests_cant": "tests use a handful of fixed names; that no other name changes a report is a statement about all names", "anchors": ["src/chainconsumer/chainconsumer.py:ChainConsumer.add_chain", "src/chainconsumer/chainconsumer.py:ChainConsumer.remove_chain", "src/chainconsumer/chainconsumer.py:ChainConsumer._get_final_chains", "src/chainconsumer/analysis.py:Analysis.get_summary", "src/chainconsumer/comparisons.py:Comparison.comparison_table", "src/chainconsumer/diagnostic.py:Diagnostic.gelman_rubin", "src/chainconsumer/chain.py:Chain.divide"]}
{"id": "C136", "title": "The walkers of a divided chain are shown like chains of their own", "statement": "A chain returned by divide() is summarised and shown like a chain made from its samples with the settings that the user gave to the whole chain (besides its colour): same object, same colours, levels, statistics and summaries, and the automatic shading for the number of chains shown. (The code violates the last part: every setting of a walker counts as given by the user, so its shading and opacity never adapt.)", "quantifier": "every accepted chain that divide() divides, without shift_params; every registry and every override; for the negations every registry without override", "why_tests_cant": "tests divide a chain and look at names and lengths; which settings count as given is only visible when final settings of a registry of walkers are compared with those of other chains", "anchors": ["src/chainconsumer/chain.py:Chain.divide", "src/chainconsumer/base.py:BetterBase.get_user_specified_dump", "src/chainconsumer/chain.py:ChainConfig._apply_if_not_user_set", "src/chainconsumer/chainconsumer.py:ChainConsumer._get_final_chains", "src/chainconsumer/analysis.py:Analysis.get_summary"]}
{"id": "C137", "title": "Walkers that agree better fare no worse in the diagnostics", "statement": "If walkers are moved apart, each as a whole and away from the mean of all walkers, and the chain then passes gelman_rubin, it passed before; and what passes a strict threshold passes a loose one, for both diagnostics. (The code violates the first part for walkers of few steps, ten or fewer for the default threshold: these fail because they agree too well.)", "quantifier": "all accepted chains of two or more walkers with two or more steps, all factors of one or more for each parameter, all thresholds; thresholds: all registries, selections, spectral estimates and normality tests", "why_tests_cant": "tests call the diagnostics on two or three long chains; that no chain is helped by disagreement relates pairs of chains of every length", "anchors": ["src/chainconsumer/diagnostic.py:Diagnostic.gelman_rubin", "src/chainconsumer/diagnostic.py:Diagnostic.geweke"]}
{"id": "C138", "title": "The HDI is not wider than the equal-tailed interval", "statement": "The highest density interval is the shortest interval that holds the requested area, so for one and the same chain the summary with the statistic hdi is not wider than the summary with mean, cumulative or max_central. (The code keeps this for grids up to the resolution of the marginal; it violates it for parameters whose range is at most 1e-12.)", "quantifier": "all grid chains with positive weights, all kernel density estimates, all areas, the three statistics mean, cumulative and max_central, every column", "why_tests_cant": "tests compare each statistic with its own expected numbers; the relation between two statistics over all chains is not tested", "anchors": ["src/chainconsumer/analysis.py:Analysis.get_parameter_summary_hdi", "src/chainconsumer/analysis.py:Analysis.get_parameter_summary_cumulative", "src/chainconsumer/analysis.py:Analysis.get_parameter_summary_mean", "src/chainconsumer/analysis.py:Analysis.get_parameter_summary_max_central"]}
{"id": "C139", "title": "A chain made again is the same chain", "statement": "A chain made from the samples of an accepted chain with the arguments of the first call is the same chain; a chain made from the samples, fields and settings of an accepted chain (its model_dump) is the same chain, but that all settings count as given by the user. (The code violates this for chains with shift_params, whose samples are rejected.)", "quantifier": "all arguments that the constructor accepts: all tables, all settings, all colours, weights given or added", "why_tests_cant": "tests make chains once; that validation changes nothing when applied again needs every input, among them every colour name", "anchors": ["src/chainconsumer/chain.py:Chain._validate_model", "src/chainconsumer/chain.py:Chain._copy_df", "src/chainconsumer/chain.py:Chain._validate_color", "src/chainconsumer/chain.py:ChainConfig._convert_color"]}
{"id": "C140", "title": "Figures show the same whatever the chains are called", "statement": "If every chain of a consumer gets another name, different chains getting different names, and the same chains are asked for by their new names (all of them, a list of names or of chains, or a dictionary), then the corner plot, the walks, the distributions and the summary plot consist of the same panels with the same drawings, ranges, ticks, labels, titles and colour bars in the same order, drawn for the renamed chains; the only texts that change are the names shown in the summary plot and in the legend; and a plot that fails fails in the same way.", "quantifier": "All consumers, configurations of the plots, truths, columns, ways of asking for chains, options of the four plots, settings of the legend, and injective changes of names.", "why_tests_cant": "Tests draw figures with a few fixed names; that no name is ever compared, sorted by, parsed or used to choose a panel, a range or a title is a statement about all names at once.", "anchors": ["src/chainconsumer/plotter.py:Plotter.plot", "src/chainconsumer/plotter.py:Plotter.plot_walks", "src/chainconsumer/plotter.py:Plotter.plot_distributions", "src/chainconsumer/plotter.py:Plotter.plot_summary", "src/chainconsumer/plotter.py:Plotter._sanitise", "src/chainconsumer/plotter.py:Plotter.get_artists_from_chains", "src/chainconsumer/plotting/contours.py:plot_surface"]}
{"id": "C141", "title": "The labels of the rows of a table carry no meaning", "statement": "A chain made of a table with other labels for its rows is accepted exactly if the chain of the given table is, and shows the same: the same summaries and LaTeX tables, covariances, correlations, criteria and their comparison, diagnostics, best points, figures and legends.", "quantifier": "for all tables, all settings of a chain, all labels of the same number, all registries, requests, options of the reports and plots", "why_tests_cant": "the tests build every table from an array or a dictionary, so the labels are always 0, 1, 2, ...; whether some step goes by label instead of position cannot be seen with those labels", "anchors": ["src/chainconsumer/chain.py:Chain.validate_model", "src/chainconsumer/chain.py:Chain.max_posterior_row", "src/chainconsumer/analysis.py:Analysis.get_summary", "src/chainconsumer/analysis.py:Analysis.get_latex_table", "src/chainconsumer/comparisons.py:Comparison.dic", "src/chainconsumer/diagnostic.py:Diagnostic.gelman_rubin", "src/chainconsumer/diagnostic.py:Diagnostic.geweke", "src/chainconsumer/plotter.py:Plotter.plot", "src/chainconsumer/plotting/contours.py:plot_point"]}
{"id": "C142", "title": "The normalisation of the posterior carries no meaning for figures and reports", "statement": "If a constant is added to the log posteriors of each chain, another one for each, then settings, summaries, covariances, correlations, both diagnostics, all figures (the panel of the posterior in plot_walks included) and the legend are the same, and best points are at the same place with the constant added to their log posterior; provided the posterior column is not used as weights, as a parameter asked for, or as the colour of clouds.", "quantifier": "all chains, heaps and registries, all constants, one for each chain name, all requests, parameters, truths and settings of plots", "why_tests_cant": "tests use one normalisation; that no constant changes any figure or report is a statement about all of them", "anchors": ["src/chainconsumer/plotter.py:Plotter.plot_walks", "src/chainconsumer/plotter.py:Plotter.plot", "src/chainconsumer/chain.py:Chain.get_max_posterior_point", "src/chainconsumer/chain.py:Chain.log_posterior", "src/chainconsumer/analysis.py:Analysis.get_summary", "src/chainconsumer/diagnostic.py:Diagnostic.gelman_rubin"]}
{"id": "C143", "title": "The interval reported for a chain holds the area its settings ask for", "statement": "For every chain accepted by the constructor (without shift_params), every parameter and every statistic: whenever get_summary reports a single interval, the interval holds the mass given as summary_area on the marginal of the parameter, in the sense of the statistic the chain was given (or promised by default: hdi if multimodal, else max): mean, cumulative and max_central leave out (1-area)/2 on either side, hdi holds at least the area, max holds it within 0.003. Without multimodal, and where the marginal exists, hdi always reports an interval, max always reports a centre, and the three others report an interval exactly if the first grid point holds at most (1-area)/2 and otherwise raise a ValueError. Whenever get_summary reports a list of intervals, the chain was given multimodal, and the intervals are, in increasing order, all runs of at least two grid points at or above a level of the normalised marginal, each centred on its highest point, where the mass above the level passes summary_area within the tolerance of the search.", "quantifier": "all accepted constructor arguments, parameters, KDE functions with nonnegative values", "why_tests_cant": "The area, the statistic and the padding of the bins pass through the constructor, the table of callbacks and five algorithms; tests compare a few summaries of Gaussian samples with loose tolerances.", "anchors": ["src/chainconsumer/analysis.py:Analysis.get_summary", "src/chainconsumer/analysis.py:Analysis.get_parameter_summary", "src/chainconsumer/chain.py:Chain._validate_model", "src/chainconsumer/chain.py:ChainConfig"]}

# A Lean 4 model of ChainConsumer

Source: `/repo/src/chainconsumer` (Python, pinned commit). Nothing is executed here; the model is
written by reading the source, and every model definition carries a comment with file and lines.

## Layout

* `lean/Verif/Model/*.lean` – the model, one file per source file or numpy/pandas concern. Only
  definitions, each citing `/repo` lines.
* `lean/Verif/Spec/*.lean` – small specifications the property theorems are stated against
  (written without using the model's helpers).
* `lean/Verif/Lemmas/*.lean` – proofs of helper facts.
* `lean/Verif/Props/*.lean` – the property theorems, and beside each theorem an `example`
  exhibiting a concrete non-trivial case that meets its hypotheses.
* `MANIFEST.json` maps property ids (`properties.jsonl`) to theorem names.
* `seeded/LOG.jsonl` – log of deliberately broken models and which theorems noticed. Builds of broken models are stopped soon
  after the first property theorem fails, so that the lists of failed theorems are not always complete.

## Modelling conventions

* **Numbers.** Python floats are modelled by an arbitrary linearly ordered field `K` (so every
  theorem holds over ℚ and ℝ alike), or by ℝ where `sqrt`, `exp`, `log`, `x**p` occur. IEEE
  rounding is not modelled; overflow is not modelled. NaN and ±inf are modelled explicitly where
  the code tests for them or where a branch can create them (constructor input, 1/sqrt(0),
  x/0, log10(0)); see the individual definitions. Properties that only compare numbers
  (arg-max, sorting, masks, thresholds) need nothing but a linear order.
* **Exceptions** are values: `Except Err α`. A function that can raise in Python returns `Except`.
* **numpy / pandas / scipy** calls are modelled by small total functions that implement their
  documented result (`cumsum`, `linspace`, `histogram`, `interp`, `searchsorted`, `average`,
  `cov`, `split`, `.loc`, `argmax`, Simpson weights, reflect-mode correlation, `bisect`).
  Library tie-breaking that is unspecified is universally quantified (e.g. `argsort`).
* **Loops** become folds or structural recursion; `while` with a counter becomes recursion on the
  remaining budget.
* **Mutable objects.** Chains are heap objects where aliasing matters (registry, final chains);
  elsewhere values.
* **matplotlib** is modelled as a trace of calls and a small per-axis state machine
  (tick visibility, limits); rendering is not modelled.

## Not modelled

Random generation (what generators and scipy's normal distribution yield is a parameter of `makeSample` and `fromCovariance`), matplotlib rendering and fonts (the extent
of texts is a parameter), the log line of `geweke`, levels of loggers and repeated warnings, IEEE rounding, pandas dtypes other than numeric, duplicate
column labels, `scipy.stats.normaltest` (a parameter of the Geweke model; `_spec` with `statsmodels.yule_walker` is a parameter in
`Model/Diagnostic` and modelled in `Model/Spectral`, from its documentation), cKDTree internals (modelled by its contract), matplotlib's colour maps (a parameter of `getColormap`).

## Simplifications inside the modelled code

* Zero is unsigned in `Flt` (doubles); where the sign of zero reaches the text (`-0.0` fix in the
  number formatting) a separate sign bit is kept (`Signed`).
* Powers of ten, floors of logarithms and fourth roots are exact; `round` and `%.nf` round the exact
  value, ties to even.
* `np.histogram` bins are searched exactly (no rounding correction); the number of bins is exact.
* `griddata(..., method="nearest")` in `dic` is a nearest sample, any of them if there are several. For a single parameter
  scipy uses `interp1d` instead of a search tree, which gives NaN outside the range of the samples; in exact arithmetic with
  positive weights the mean is inside. Rounding can put it outside when all samples are equal, and then the DIC is NaN.
* `interp1d` sorts its abscissae; the model requires them sorted, which they are at every call.
* `from_arviz` is modelled for scalar variables; its (chain, draw) labels are texts in the model. `from_covariance` is modelled for
  distinct names.
* Simpson's rule is modelled on the uniform grids on which it is called.
* Sorting by value (`sort_values`, comparison table) is modelled by a stable sort; the order of
  equal values is a parameter (`tie`) where it could matter.
* The kernel density estimator enters the marginal model as a function parameter `KdeFn` with stated
  assumptions (`KdeOk`: nonnegative, right length). `Model/Kde.lean` models MegKDE over ℝ in any
  dimension; `megKde_kdeOk` shows that it meets the assumptions. `np.linalg.cholesky` is modelled by its
  contract (the lower triangular factor with positive diagonal, proved to exist and to be unique for
  positive definite matrices). The two cKDTree queries are modelled by what they return: all points in
  the closed ball, and *some* set of k nearest points (`NearFn` with contract `NearOk`; the theorems hold
  for every such function, because which of several equally distant points scipy returns is not
  specified). A zero bandwidth factor and covariances that numpy inverts only by rounding are
  `Err.unmodelled` / errors.
* `np.histogram2d` is modelled like `np.histogram`; the two-dimensional `gaussian_filter` is the
  one-dimensional filter along each axis; `norm.cdf` is the distribution function of Mathlib's standard
  Gaussian measure; `np.argsort` in the contour surface is any sorting permutation (`ArgsortOk`).
* Negative `smooth` values, a single histogram bin and other inputs on which numpy would produce NaN
  arrays end in the marker `Err.unmodelled`; no theorem claims anything about success there.
* `%`-formatting of strings: conversions other than `%s` and `%%` raise at once. Python raises
  ValueError for some of them and TypeError for others; the model reports `.type` for all.
* `get_latex_table(filename=…)` also writes the text to a file: not modelled.
* Plots (`Model/Plotter`, `Model/Figure`) are lists of calls per panel. Left out: the colours of
  anything but contours and legends, line styles, fonts, watermarks, the offset text appended to axis labels
  at the end of `plot`. Legends and figure sizes are modelled on their own (`Model/Legend`), contour colours in `Model/Shades`. Style
  arguments that matplotlib might refuse (marker styles, line styles, `marker_alpha` above 1) are taken to be acceptable; the
  conditions on sigmas, shading opacity and gradient of contours are modelled (`plotContour`). Calls on the two axes of a triangle panel are listed axis by axis. Limits that are
  infinite (no chain has a range) raise ValueError, as in matplotlib. `Line2D.filled_markers` is a parameter.
* Labels of contours (`Model/ContourLabels`) are the texts given to `clabel` for each level; matplotlib decides where along a line,
  and whether, a label fits. If no level is strictly between the least and greatest value of a surface, matplotlib draws the single
  line at the least value instead; C79 lists the levels as given.
* `plot_dist` (`Model/PlotDist`) is modelled as what it draws: the points, the shaded interval with its opacity and the title. A
  title with a number that has no errors keeps the number (Python prints its shortest decimal text).
* The running average of a walk is modelled on its own (`Model/Walks`), as the points drawn; `np.convolve(…, mode="same")` is
  the middle part of the full convolution, of the length of the longer operand.
* Tick labels of an axis (`Spec.Ticks`) follow matplotlib's rules: a linear axis starts with major labels only,
  `set_xscale("log")` installs new major and minor locators and formatters, `set_xticks([])` replaces the major locator only,
  `set_major_locator` brings major labels back. Whether matplotlib prints a label at each minor tick depends on the decades
  shown, so `minor` means that such labels may be printed.
* `from_emcee`: `EnsembleSampler.get_chain(flat=True, thin=, discard=)` is modelled as emcee implements it: keep every
  `thin`-th step from `discard + thin - 1` on and flatten step by step, the walkers of one step side by side.
* Positions of panels (`Model/Grid`) follow the formula of matplotlib's `GridSpec.get_grid_positions`; the texts of factors and offsets
  (`Model/Offsets`) are a parameter, given for each panel and axis.
* A value in the location of a truth (`Model/TruthLocation`) either is or is not convertible to a number by pydantic.
* Iterating over a 0-d array, calling a method of a string etc. are reported as `.type`.

## Where code, documentation and properties disagree

Each item is proved in the named theorem.

* `shift_params` also recentres the weight column, so a shifted chain has a negative weight or
  only zero weights (`C08_weights_destroyed`, `shifted_weights`) and can no longer be divided into walkers (`C08_violated`,
  `C11_shifted_chains_never_divide`).
* The maximum-posterior row is located by position but looked up by label (`C12_violated_wrong_point`;
  chains from `divide` fail, `C12_divided_walkers_fail`).
* One column: `get_correlation` and both matrix tables raise (`C15_single_column_fails`,
  `C15_tables_fail`); no columns: both tables raise.
* An empty `var_names` list selects everything (`C16_violated_empty`).
* AIC raises when `n = k + 1` data points, its correction is negative for fewer, BIC is NaN for zero
  data points (`C17_*`, `C19_violated`).
* The comparison table declares one column too many without DIC (`C20_violated`).
* The Gelman–Rubin ratio has an extra term compared with the docstring (`C21_docstring_ratio`).
* `max_central` need not bracket its centre (`C28_violated`).
* The HDI search has an absolute tolerance of 1e-12, so results depend on units (`C33_violated`); the
  HDR cut of multimodal summaries has an absolute tolerance 1e-3 on densities (`C35_violated`).
* `get_summary`'s docstring allows dictionaries and lists of names for `chains`; these fail.
* Grids whose spacing shrinks to half the first spacing or less are binned wrongly (`C46_violated`).
  A constant parameter has an empty plot range and grid bins raise (`C45_constant`, `C46_constant`).
* Displayed numbers: errors between 10 and 100 are rounded twice (`C40_violated`), errors between 100
  and 1000 are shown in tens; a bound at zero with zero errors raises OverflowError (`C42_violated`).
* Transposed parameter tables with a chain requested twice have too few cells (`C43_violated`);
  explicitly requested columns that are not plotted for any chain show the fill text
  (`C43_table`: the summary is computed without the `columns` argument).
* Percent signs in captions or labels break every table (`C44_violated`).
* MegKDE falls back to the `nmin` nearest points. If equally distant points have different weights, the
  value depends on which are chosen, hence on the row order (`C48_order_violated`, for every neighbour
  search) and on reflections (`C49_violated`).
* With KDE the number of evaluation points is `max(200, int(largest bin edge))`: it depends on the unit
  of the parameter. C38 is therefore stated for chains without KDE.
* `kde=f` scales the bandwidth in one-dimensional marginals only; in two dimensions and in `plot_dist` it is
  passed as the truncation radius (`C50_violated`, `C50_plot_dist_violated`).
* Colours: alias `e` raises KeyError, the empty string IndexError (`C53_violated_*`).
* `plot_distributions` draws truth values as horizontal lines, although the parameter is on the horizontal axis
  (`C58_violated`, for every figure).
* `plot_summary` pairs the vertical range of each column with the panel to the left of its own, the names included, and
  leaves the last column automatic (`C59_limits_partial`, `C59_violated`).
* Blinding: in `plot_summary` a logarithmic scale set after the removal of the ticks brings their labels back
  (`C57_violated_summary`). `set_xticks([])` replaces the major ticks only, so in the other plots the minor tick labels of a
  logarithmic axis stay (`C57_violated_minor`). The colour bar of a blinded colour parameter is labelled
  (`C57_violated_colourbar`).
* `from_emcee` zips names and parameters: with too few names the remaining parameters vanish, with repeated names all but the
  last one do, and surplus names are ignored; none of these is refused (`C67_violated`).
* `from_emcee` keeps the samples step by step, `divide` cuts them into consecutive blocks: with `walkers` set to the number of
  walkers the parts are time segments that mix all walkers, not walkers (`C68_mixed`, `C68_violated`). `Chain.from_numpyro` and
  `from_arviz` flatten chain by chain and agree with `divide`.
* The panels of `plot_walks` share their horizontal axis (`sharex=True`), and each walk sets its range: the walk drawn last decides,
  longer ones are cut off (`C70_shown_partial`, `C70_violated`).
* The running average of a window of one step draws nothing, of an odd window longer than the walk raises ValueError
  (`C71_violated_one`, `C71_violated_long`).
* `shift_params` centres the columns one after the other, the weight column included, with the weights as changed so far: the order
  of the columns decides the result, and whether the chain is accepted (`C69_violated`). For 36⁴ rows or more the automatic number
  of bins also depends on the number of columns: a further column changes the summaries of the others (`C69_violated_rows`).
* `get_max_posteriors` raises KeyError as a whole if one registered chain has row labels other than 0, 1, … (`C72_violated`).
* `get_summary` raises IndexError as soon as one chain has a parameter without a sample in the range that `get_extents` computes:
  constants, parameters with two values, every marker (`C74_violated`, `C74_violated_two`, `C74_marker`, `C74_exists_iff`). The
  densities are then NaN, and `get_parameter_summary_max` catches ValueError only (`C74_violated_summary`). On grids a constant
  raises IndexError for every statistic (`C74_violated_grid`). What the other statistics return for NaN densities is not modelled.
* With KDE, `get_smoothed_histogram2d` takes the number of points along both axes from the first parameter. On grids whose
  parameters have different numbers of values the histograms of (x, y) and (y, x) therefore have different shapes (`C76_violated`).
* With `flip` the last panel of `plot` is given the scales of a flipped histogram whatever the number of parameters, but histograms
  are flipped for two parameters only: otherwise the density axis of the last histogram is logarithmic (`C77_violated`). For the
  same reason a single histogram shows no label (`C78_violated_single`), nor does the horizontal axis of a single pair without
  histograms (`C78_violated_pair`).
* `plot_distributions` shows the names of the columns even if labels are configured (`C78_violated_distributions`). The offset text
  that matplotlib computes while drawing, and that `plot` appends to the labels (plotter.py 267-274), is not modelled.
* Without a configured location the legend is put over the surfaces if two histograms are flipped, although the panel above the
  diagonal is blank (`C80_violated_flip`), and over the only panel of single-panel figures (`C80_violated_single`). Chains drawn as
  clouds only get a line and a marker (`C80_violated_cloud`). `legend_kwargs={"reverse": True}` reverses the entries but not the
  text colours (`C80_violated_reverse`). `legend_artists` decides on which side of the text the handles are, not whether they are
  shown (`C80_violated_artists`). Which side that is depends on how the panel is written: the code compares the row with the
  column as given, so that `(0, -1)` and `(0, 1)` in a grid of two differ (`C80_violated_markers`).
* The brightness of contours is computed by `np.logspace(np.log(a), np.log(b), num)`, natural logarithms as powers of ten: it runs
  from `a ** ln 10` to `b ** ln 10` instead of from `a` to `b` (`C83_violated`, `C83_violated_colour`). Gradients of 10 or more, or of
  -2 or less, raise ValueError (`C83_violated_gradient`).
* `FigSize.GROW` adds 2 inches per parameter, not the documented 1.5; numbers do not scale the margin of 3 inches; strings silently
  mean `GROW` (`C84_violated_*`). The docstring calls `COLUMN` the default.
* Sigmas are not validated: empty lists, a single sigma with filling, and lists that do not increase are accepted for chains and
  raise when contours are drawn (`C88_violated_chains`).
* Titles over histograms are made by another function than the one `get_summary` uses for multimodal chains with a single band: the
  title shows the mode as centre, `get_summary` the median of the HDI (`C85_violated`). Titles appear only if `bar_shade` is on.
* Multimodal chains have no summary if the points at the peak of a marginal hold more than `summary_area` (`C89_violated`: a constant
  marginal): `root_scalar` gets a bracket without a change of sign, ValueError. Since `get_summary` has no handler, all other
  summaries of the request are lost too.
* Contour labels have one decimal at most: the contours at 5 and 6 sigma (two-dimensional) are both labelled `100.0%`
  (`C82_violated`).
* `plot_dist` repeats the code of the histograms of `plot` with differences: it shows the name of the column although a label is
  configured (`C81_violated_label`), ignores the bins of smoothed grids (`C81_violated_grid`: the first point of a grid of three is
  left out), uses `shade` where `plot` uses `bar_shade`, and passes `kde` as truncation (`C50_plot_dist_violated`).
* `plot_walks` keeps every n-th of 200000 samples or more but numbers the kept ones 0, 1, 2, …, so points do not stand at their step
  (`C86_violated_steps`); walks of 100001 to 199999 samples exceed the limit of 100000 points (`C86_violated_limit`). `log_weight=None`
  is documented to be inferred from the weights; the code treats it as `False`.
* The docstring of `plot` says that chains can be given as an integer or a string and columns as a number. A single chain given by name,
  index or itself is ignored and all chains are shown (`C91_violated_one`); an index in a list and a number of columns raise
  (`C91_violated_numbers`).
* A number as `figsize` of `plot_walks` is documented to scale the default size; it makes a square of that side (`C92_violated`).
* Two chains coloured by the same column share one colour bar but not one scale: the bar has the scale of the chain drawn last, so it is
  wrong for the other (`C93_violated`). The labels `weight`, `log_weight` and `posterior` are spelled out; the default name of the posterior
  column, `log_posterior`, is not among them.
* `add_watermark` makes the turned text fit the width only; in wide figures (`plot_summary` of few chains) it is higher than the figure
  (`C94_violated`).
* `restore_rc_params` sets the values found at the creation of the consumer, not those before its first plot; a choice made in between is
  lost, even if the configuration left the settings alone (`C95_violated_untouched`), and two consumers restored in the order of their
  creation leave serif letters (`C95_violated_two`).
* `rotation` and `fontsize` in `watermark_text_kwargs` have no effect (`C96_violated`).
* `from_numpyro` ravels every variable: the components of a vector become further rows of one parameter (`C97_violated`); together with
  scalars this raises, because the columns differ in length.
* A pandas Series as location of a truth is documented and there is a validator that would convert it, but the validator runs after
  pydantic has compared the value with the annotation `dict[str, float]`, which rejects every Series (`C99_violated`; `C99_before`: it
  would work before).
* Labels of axes whose ticks have no common factor or offset get a blank at the end (`C100_violated`).
* Chains made with `shift_params` have neither covariances nor correlations: numpy rejects the weights that the shift leaves
  (`C13_violated_shift`, `C14_violated_shift`).
* If the posterior column is also the weight column, the DIC depends on the normalisation of the posterior (`C18_violated`).
* `plot_walks` gives the panel of a requested parameter that no shown chain has no range and no label, whatever is configured
  (`C66_walks_absent`).
* `dic()` depends on the order of the rows when several samples are equally near to the mean and have different
  log posteriors: scipy returns one of them by position, comparisons.py 44-47. `C102_violated` proves it for two samples at the
  same place, for every way of breaking ties between points.
* The histogram of a chain without smoothing may not be drawn although `get_summary` reports the parameter: HDI intervals come
  from bins padded by 20 percent on both sides (analysis.py 524, 586), the curve from bins that are not (plotter.py 937-940), and for
  multimodal chains the intervals are not cut off at the curve (plotter.py 966-980), so that `interp1d` raises a ValueError.
  `C103_violated` proves it for an accepted chain of three samples, for `plot` and `plot_distributions`. Intervals of a single mode are
  cut off at the curve, but fail likewise if they lie beyond it altogether (`C103_missed`); `C103_single_violated` proves this for an
  accepted chain of four samples with nearly all weight at the lower end, for `plot`, `plot_distributions` and `plot_dist`
  (plotting/contours.py 150-158).
* `get_colormap` with a negative scale returns colours without "#" (`scale_colour` returns the stripped text unchanged for a
  negative factor, `C105_violated`). Neither it nor `get_default` is used elsewhere in the package.
* `make_sample(seed=…)`: the seed determines the means and the correlation matrix only. The rows are drawn by
  `scipy.stats.multivariate_normal(...).rvs` without a random state, that is from numpy's global one (`C106_violated_seed`). With
  `num_points=1` scipy drops the first dimension and pandas raises a ValueError (`C106_violated_single`).
* The HDI search skips candidates at most 1e-12 wide (`eps`, analysis.py 557). For parameters in small units (grid points at most
  1e-12 apart) an area near 0 therefore gives the whole range, wider than the interval for a greater area (`C107_whole_range`,
  `C107_violated`: accepted grid chain with the points 0 and 1e-9).
* `get_extents` (helpers.py 21-25) divides `1 - cdf` by its maximum, the value after the lowest of the 2000 cells, so that the
  lowest cell counts as empty; and it returns centres of cells, so that the upper half of the highest cell is always outside.
  Samples piled up at either boundary of a parameter are therefore left out of the unpadded bins whatever their weight
  (`C108_lowest`); `C108_violated` is an accepted chain with 96 percent of its weight at 0 whose summary has its centre above 1, and
  whose lowest cell is left out with padding as well.
* The HDI is searched in a marginal whose range is padded by a fifth on either side (analysis.py 526, helpers.py 34-37), into which the
  interpolated density extends. Limits can therefore lie beyond all samples, by at most a fifth of their range (`C109_inside_partial`):
  `C109_violated` is an accepted chain with the samples 0, 4 and 2000 and a negative lower limit, for the default area. No other
  statistic does this, and no statistic does it on grids.
* `get_latex_table` does not escape ampersands in names and labels: a chain called `SN & BAO` gets a line with more cells than the
  tabular has columns, which LaTeX rejects (`C110_violated`). Without ampersands the lines are read back as the cells of the table
  (`C110_text_partial`).
* Chains given to `get_summary` as objects are summarised with their own settings; the global override is not looked at
  (`C111_ignored`), also if it sets the statistic (`C111_violated`). Otherwise given and registered chains agree
  (`C111_given_partial`).
* A global override is applied to constructed chains without the checks of the constructor: `multimodal` is not refused for a
  statistic other than HDI (`C112_violated_multimodal`), and `shift_params` moves no sample (`C112_violated_shift`). The settings
  chosen automatically are those for the chains' own `show_contour_labels` and `plot_contour`, not for those of the override
  (`C112_violated_labels`, `C112_violated_contours`). With other settings an override acts like settings of the chains
  (`C112_same_partial`, `C112_summary_partial`).
* The docstrings of `aic`, `bic` and `dic` promise an entry `None` for chains without the needed values; there is no entry (C17).
* Contours of chains with very small weights: `hist[hist == 0] = 1e-16` (plotting/contours.py 205) compares an absolute
  number with a histogram of unnormalised weights (helpers.py 98-102). With weights such as `1e-17` the empty cells count
  as denser than the filled ones, and contours enclose them first (`C114_violated`). KDEs have no empty cells
  (`C114_weights_partial`), and weights above `1e-16` are safe (`C114_empty_last`).
* `plot_summary(errorbar=True)` draws the bound of `get_parameter_summary` as a point with arms of the lengths
  `abs(diff([lower, center, upper]))`. A `max_central` centre outside of its limits (C28) gives arms that do not end at the limits
  (`C115_violated`), and the modes that `get_summary` reports for multimodal chains are not drawn, one bar covers the gap between
  them (`C115_violated_modes`, for a grid of three points with weights 2, 1, 2, the first concrete chain here with two modes).
* `get_summary`, parameter tables and the histograms of `plot` take a chain to have a parameter if its table has a column of that
  name. If the weights (or posteriors) of a chain bear the name of a parameter of another chain, they are summarised and drawn as a
  parameter of the chain (`C116_violated`, `C116_violated_plot`; `C116_violated_summary` for two accepted grids, the second with
  `weight_column="a"`). `plot_distributions`, `plot_summary`, `plot_walks` and the surfaces of `plot` ask for parameters.
* `get_latex_table` calls `get_summary` for all plotted parameters, whatever `columns` and `blind` are. An exception in any of them,
  such as IndexError for a constant parameter (C74), is raised by tables that do not show it (`C117_violated`,
  `C117_violated_constant`); and a parameter that colours a cloud, which is not plotted, gets the fill text although `get_summary`
  reports it if asked (`C117_violated_blank`, `C117_violated_cloud`).
* `_get_smoothed_histogram` takes the power of the histogram but not of the KDE that replaces it (analysis.py 338-356), so with a KDE
  marginals and summaries ignore `power` (`C118_ignored`), while contours and `plot_dist` use it (`C118_violated_kde`). With
  smoothing the power is taken first, the statement for `C118_*_partial` excludes this. The `1e-16` for empty cells is added after
  the power: at `power=6` weights of 1/1000 fall below it (`C118_violated_empty`). `C118_contours_partial` assumes that `np.argsort`
  only compares (`Spec.OrderFree`), met by sorting (`orderFree_exists`).
* `geweke` tests the z scores for normality with `scipy.stats.normaltest`, which computes its p-value from their number, skewness and
  kurtosis (`Spec.ShapeOnly`). Adding a constant to all z scores changes none of these, so chains pass however far their first and last
  parts are apart (`C119_violated`). `_spec` is NaN for fewer than three steps, and for three unless the first equals the last
  (`spec_three`: the autocovariances with divisors `n - k` have no positive innovation variance), and one NaN rejects the chain
  (`C119_short`, given that `normaltest` returns NaN for NaN).
* Sharing the weight of a sample between copies of it changes covariances, by the ratio of
  `sum(w) - sum(w**2) / sum(w)` before and after (`C120_covariance_partial`, `C120_violated`), the bandwidth of KDEs
  (`C120_kde_violated`) and, without `bins`, the number of bins above 36**4 rows per column (`C120_bins_violated`).
  Nothing else depends on it (`C120_summary`, `C120_contours`, `C120_aic`, `C120_bic`, `C120_correlation_partial`).
* Neither `gelman_rubin` nor `geweke` looks at the weights of the samples (`C121_ignored`): walkers whose weighted means are
  arbitrarily far apart pass (`C121_violated`).
* The axes of a chain with contours or a cloud end short of its smallest and largest samples, and truths play no part in the ranges:
  maximum posterior points at such samples and truths beyond them are drawn where they cannot be seen (`C122_hidden`,
  `C122_violated`). Ranges of a single value, which matplotlib widens, are kept as they are in the model.
* A panel and the other columns (C123): two requests of the same chains that differ in their columns agree on the panels they share, for `plot`, `plot_distributions`, `plot_walks` and `plot_summary(errorbar=True)`. Ticks and axis labels are left out for `plot` (they depend on the place of a panel), and so are histograms of figures with `flip`. **Violated** by `plot_summary(errorbar=False)`: the vertical limits of plotter.py 674-677 are taken from the column that follows. The shared horizontal axis of `plot_walks` is not part of a panel here (C70).
* Colours when chains are added or removed (C124): adding a chain or a marker keeps the settings of the others (besides shading); removing one keeps those before it. **Violated**: removing a chain with an automatic colour (chainconsumer.py 164-176: one iterator, restarted for every figure) recolours all later automatic chains, the next one in the colour of the removed one; and given colours are not skipped by the iterator, so a chain with `color="blue"` looks like the first chain without a colour.
* What is drawn over what (C125; model `Model/Stack`): `drawn` sorts the artists of a panel by `zorder`. Histograms and distributions are stacked by the `zorder` of the chains; truths are over them by default. **Violated**: clouds are drawn at `zorder - 5` (plotting/contours.py 60), filled contours at `zorder - 2`, points at `zorder + 1`, so the cloud of a chain whose `zorder` is greater by 1 to 4 is under the contours and points of the other; walks (plotter.py 1038) ignore the `zorder`. `plot_dist` (plotting/contours.py 169), which shades at `zorder - 1`, is used by none of the figures.
* What is drawn for a chain in all company (C126): the calls that carry the name of a chain are the same in any two figures of the same final chains, on panels of the same parameters. **Violated**: `plot_distributions` counts all chains (plotter.py 484) where `plot` counts those with contours (184-185), so a marker, for which it draws nothing, removes the titles.
* One chain can take away the comparison of all others: `aic()` raises ZeroDivisionError if any chain has `num_free_params + 1` data
  points (`C127_violated_aic`), every value of `bic()` is infinite or NaN if any has zero (`C127_violated_bic`), and `dic()` raises if any
  was made with `shift_params` from samples without weights (`C127_violated_dic`).
- **C128, units and the DIC.** `dic` evaluates the deviance at the mean by `griddata(..., method="nearest")` on raw parameter values. The Euclidean distance mixes the units of all parameters, so giving one parameter in units ten times smaller may select another sample and reverse the order of preference of two models (`C128_violated_dic`). AIC and BIC do not depend on units.
- **C129, signs.** The cumulative sums at analysis.py 358 include all of a point's own density, so equal-tailed limits and medians are half a step of the fine grid too low; with the opposite sign of the parameter they differ by a full step (`C129_violated_equal_tailed`, every grid chain). `get_extents` leaves out the lowest point but not the highest (`C129_violated_range`). The guard `maximum == -0.0` (analysis.py 478) is applied after rounding to one decimal, but with errors between 10 and 100 the number is written with none, so -0.4 is written as "-0" (`C129_violated_text`). The search of the HDI keeps the first of several equally narrow intervals, and counts the first point of the range as having no width, so of a flat marginal the lowest part is reported whichever the sign (`C129_violated_hdi`).
- **C130, symmetric distributions.** For the same reason as in C129, the median of a symmetric grid is reported at exactly half a step of the fine grid below the centre of symmetry (`C130_violated`, every such chain). The cut of `max` includes its last point, which is below the threshold, but not the point before its first, so the interval of a symmetric distribution with one peak is centred half a step above the centre of symmetry (`C130_max_partial`, `C130_violated_max`); and the fine grid has an even number of points, so its highest point is never the centre (`C130_violated_peak`). The HDI of a flat marginal is its lowest part, so two points of equal weight at 0 and 1 have an interval from 0 to 0.683 (`C130_violated_hdi`, `C130_violated_hdi_chain`).
- **C131, names.** A parameter whose name is, up to case, one of weight(s), posterior(s), log_weights, log_posterior(s) is accepted and silently left out of all reports, although another column holds the weights (`C131_violated`); named `weight` in a table without weights it becomes the weights (`C131_violated_weight`).
- **C132, column order.** With `shift_params` the weight column is itself shifted, in its turn. With equal weights every column behind it is then averaged with weights zero and the constructor raises a `ZeroDivisionError` (`C132_violated_weights_first`); the same table with the weights last is accepted (`C132_violated`).
- **C133, order of chains.** Automatic colours are handed out in the order of the chains, so two chains with automatic colours that change places change colours (`C133_violated`). The parameters drawn by default are listed in the order of the chains, so if the columns of the chains differ (as sets or in their order) the panels of a figure of all chains depend on the order of adding (`C133_columns_violated`).
- **C134, walkers and the whole.** The best point of a chain is reported, those of its walkers are not, as they keep the row labels of the chain (`C134_violated`).
- **C135, names of chains.** Names do not matter, except that `divide` makes up names that another chain may have already (`C135_violated_walkers`), and that the comparison table does not escape an `&` in a name (`C135_violated_table`).
- **C136, look of walkers.** All settings of a walker but the colour count as given by the user, so the automatic shading does not apply to walkers (`C136_violated`, `C136_violated_opacity`).
- **C137, walkers that agree too well.** `gelman_rubin` asks for `|R - 1| < threshold` although R falls below 1 for walkers that agree; up to ten steps per walker such chains fail, and pass when the walkers are moved apart (`C137_violated_short`, `C137_violated`).
- **C138, HDIs wider than equal-tailed intervals.** Intervals of at most 1e-12 are skipped in the search whatever the units, so that for a parameter with so small a range the HDI is the whole range, and wider than the interval of every other statistic (`C138_narrow_range`, `C138_violated`).
- **C139, shifted chains cannot be made again.** The samples of a chain with `shift_params` have shifted weights, some of them not positive, so the constructor rejects them, whether called as before or with `model_dump()` (`C139_violated_shift`).
- **C141, row labels and best points.** Everything a chain shows goes by position, except the best point: `samples.loc[argmax]` (chain.py 200) takes a position for a label. With labels such as dates or names it raises KeyError, and with `plot_point` the contours fail with it.
* The name of a truth (`Truth.name`) is shown in no figure (`C87_names`).
* The docstrings of the covariance and correlation tables say that the chain defaults to the first one; the code asserts that there
  is exactly one (`C64_chain`).

## Trusted base

Lean 4.33.0 kernel; the axioms `propext`, `Classical.choice`, `Quot.sound` (no others); the
faithfulness of the model to the source as cited; the library contracts listed above.

## Plan per property

| Id | Model | Proof |
|---|---|---|
| C01, C02 | registry as heap references in an association list, `step` per API call | refinement to an abstract history specification, induction over the call list |
| C03, C06 | typed attribute map, `_apply_if_not_user_set`, `_apply`, loop of `_get_final_chains` | induction over the loop, case split on attribute |
| C04 | heap with allocation; the loop copies then sets attributes | frame invariant: old addresses untouched |
| C05 | `next_colour` as the list it yields; iterator state threaded through the loop | the palette table is finite: `decide` over the whole table, lifted to all registries by induction |
| C07, C08 | raw tables with NaN/inf cells, validator as a sequence of guards, in-place recentring loop | guard-by-guard equivalence; Cauchy–Schwarz for the weight column |
| C09 | filters | list reasoning |
| C10, C11 | `np.split` on rows, constructor re-run per walker | chunk lemma; constructor characterisation; C11 by C08 |
| C12 | `argmax` (position) then `.loc` (label) | characterise both; counterexample for permuted labels |
| C13–C15 | weighted covariance formula, squeeze to 0-d for one column | sums of squares; Cauchy–Schwarz |
| C16 | `_filter_var_names` | list reasoning |
| C17–C20 | comparison dictionaries as association lists, dataframe join and sort | minimum lemma; cancellation; stable sort |
| C21–C23 | walker splits, variance formulas; recursion over chain lists | algebra; induction |
| C24 | `np.diff`/`where` index lists, strict zip | induction on the mask, maximal-run specification |
| C25 | the full pipeline extents → bins → histogram → power → filter → interp → cumsum | composition of monotonicity lemmas |
| C26–C28 | `interp1d` inversion of the cumulative curve | interpolation lemma `F (Q v) = v` |
| C29, C30 | padded arrays, bisection with 50 steps | loop invariant on the bracket |
| C31–C33 | the start-index loop with break/continue | loop invariant over processed starts |
| C34, C35 | `bisect` with `xtol`, mask, intervals | bracket invariant; first-iteration exit lemma |
| C36, C37 | arg-max over masked grid; summary loop | list reasoning |
| C38, C39 | pipeline | naturality of each stage under affine maps; permutation invariance of sums; the constructor commutes with reordering rows and scaling weights |
| C40–C42 | `floor(log10)`, scaling, rounding, `%`-formats on exact decimals | rounding error bounds, case split on resolution |
| C43, C44, C20 | string-level table assembly, Python `%` interpolation | structural induction |
| C45, C46 | 2000-cell histogram and tail searches; grid bins | counting/sums |
| C47 | correlation with reflected index | period-sum argument |
| C48–C50 | neighbour selection by contract, Gaussian weights, Mahalanobis distance | positivity, matrix algebra |
| C51 | any argsort permutation, cumsum, inverse permutation | rank sums |
| C52 | `1-exp(-s²/2)` and `2Φ(s)-1` | monotonicity |
| C53, C54 | palette and alias tables; hex parsing | finite table + case analysis; floor monotonicity |
| C55–C61 | sanitisation functions and plot traces | list reasoning; state machine on events |
| C62 | validator | case analysis |
| C63 | summary loop over the final chains | the loop's state does not reach the values |
| C64 | matrix table text | string lemmas of C43 |
| C65, C66 | limit calls per panel | the last limit call wins; loop invariant on the greatest ordinate |
| C67, C68 | thinning, flattening and `dict(zip)` of `from_emcee`, then the constructor and `divide` | index arithmetic on uniform nested lists |
| C69 | whole pipeline from constructor to summary | every step reads the columns by name; congruence of lookups |
| C70, C71 | limit calls along the shared axis; the averaged points | list of limit calls equals list of walks; window sums |
| C72, C73 | request sanitising, loop over the chains; the one-row table of a marker | loop characterisation; C12 |
| C74 | `Model/Degenerate`: the marginal and the maximum statistic again on doubles with NaN | NaN spreads through every step; `fltParameterSummaryMax_exact`: agreement with the exact model wherever that succeeds |
| C75, C76 | two-dimensional histogram, power, two-pass filter; KDE on the doubled grid | cell by cell; a double kernel sum; C47; the exchange as an affine map (C49) |
| C77, C78 | scale and label calls per panel (`Spec/Axes`) | calls that draw neither scale nor name axes (`Lemmas/Draw`); case split on the kind of panel |
| C79 | `plot_contour`, `plot_surface` in the panels | rectangles cell by cell; C51, C52, C75 |
| C80, C84 | `Model/Legend` | list reasoning; C56 for what the panel of the legend shows |
| C85, C89 | `plotBars` and the multimodal branch of `get_summary` | C34–C36 on a straight-line marginal (`Lemmas/TwoPoint`) for the witnesses |
| C82 | `Model/ContourLabels` | C52; decimal numerals have one value; rounding is monotone |
| C81 | `Model/PlotDist` | both sides unfolded to the same bins, summary and text; `interp1d` stays on the polyline; C45 for the grid witness |
| C86, C87 | `walks`, truths in every figure | list reasoning on the calls of each panel; the figures with `truths := []` show that no other call draws truths |
| C90 | `simpson` | induction over pairs of intervals |
| C91, C92 | `Model/Asked`, `Model/Layout` | case split on the request; arithmetic of ceilings |
| C93 | `Model/Colorbars`: `paths_for_cbar` with its values beside `plotBase` | dictionary merges keep the last value; every coloured cloud of a panel has an entry |
| C94 | `Model/Watermark` | `arctan2` as the argument of a complex number; algebra |
| C95 | `Model/RcParams`: consumers and rcParams as a state machine | induction over histories |
| C96 | `Model/Keywords` | lookups in merged dictionaries |
| C97 | `Model/Sources` | C07 and C16 for the tables; positions in flattened lists |
| C98 | `Model/Grid` | sums of widths, field arithmetic |
| C99 | `Model/TruthLocation` | case analysis of what pydantic accepts |
| C100 | `Model/Offsets` | last label of each axis, C78 |
| C101 | `plotBars` and the figures | composition of C25, C36 and `get_summary` |
| C102 | `Model/Comparison`, `Model/Covariance`, `Props/RowCriteria` | row order and weight normalisation in comparisons and covariances |
| C104, C105 | `Model/Colormap`, `Props/Colormap` | rounding to channels, digits of hex pairs, `C54` for the brightness |
| C106 | `Model/Examples`, `Props/Examples` | Cauchy-Schwarz and sums of squares for the correlation matrix; constructor on a table without weights |
| C107 | `Props/Nested` | the bisections of the max summary and of the density cut are monotone in the target mass; two runs part at a threshold |
| C108 | `Props/Coverage` | C45 and subadditivity of weights over cells |
| C109 | `Props/Inside` | ends of the centres of the bins (C45, C46), numbers of summaries within them; sums over a piecewise linear density for the witness |
| C110 | `Props/TableText` | splitting of lines at ampersands (C20), characters of formatted numbers, C43 for the cells, C44 for the frame |
| C111 | `Props/Given` | resolved settings (C63) |
| C112 | `Props/Override` | later keyword arguments win, settings of constructed chains, resolved settings (C03) |
| C113 | `Props/Messages` | inversion of the loops (C17, C22, C37), text of what is missing case by case |
| C114 | `Props/ContourRuns` | histogram, bins, smoothing and KDE commute with permutations, factors and affine maps; then C79 for the order of cells |
| C115 | `Props/ErrorBars`, `Lemmas/Vee` | cells of `plot_summary` (C58), brackets from C26, C27, C29, C31; the chain with two modes by bounds on Simpson's rule |
| C116 | `Props/OnlyParameters` | keys of summaries (C37), cells of tables (C43), calls of the panels (C56-C58), data columns (C09); the summary of the weights from that of a shifted grid (C38) |
| C117 | `Props/ChosenTable` | cells of tables (C43); exceptions propagate through the loops of `get_summary`; a constant on a grid from C74 |
| C118 | `Props/Power` | histograms and KDEs with another power; sums of powers of sorted values (`cross_sums`, `part_le`); a step grid of weights 1/1000 |
| C119 | `Model/Spectral`, `Props/Geweke` | Yule-Walker equations of order 2 in closed form; scaling of autocovariances; central moments under shifts; walkers of 40 steps with prescribed z scores |
| C120 | `Props/Splitting` | sums over copies grouped by row; the same values with the same totals give the same histograms, extents and cell sums; reliability weights in closed form; bandwidth of the KDE of two point masses |
| C121 | `Props/GelmanRubin` | from the verdict of C21; sums over permuted walkers and steps; two walkers of the same unweighted steps |
| C122 | `Props/Visible` | C45 bounds the ends of a range by the cells of the extreme samples and by the weight beyond them; C60, C66 carry it to the panels |
| C123 | `Props/OtherColumns` | the columns requested enter the ranges, blinding and chains of a parameter only through the parameter (`sanitise_same`); then the lemmas on panels; C59 for the violation |
| C124 | `Props/Siblings` | the final dictionary as a list over the copies, with the number of automatic colours used before each (`finalEntries_append`) |
| C125 | `Props/Stack` | the calls of a panel as one block per chain (`InTurn`), stability of sorting by `zorder` (`above_stable`) |
| C126 | `Props/Company` | calls for chains in turn (`drawnFor_parts`), `plotBars` with and without a summary (`plotBars_plain`) |
| C127 | `Props/Rivals` | differences of criteria do not depend on other chains; violations for chains that spoil the report |
| C128 | `Props/CriterionUnits` | `inUnits`, `NearestAgree`; loop congruence; the distances to the mean scale together for offsets, signs and single parameters |
| C129 | `Lemmas/Mirror`, `Props/SignConvention`, `Props/SignHdi` | mirror images of bins, histograms, filters and interpolation; cumulative sums of reversed lists |
| C130 | `Props/Symmetric`, `Props/SymmetricMax`, `Props/SignHdi` | from C129 and C120: the mirrored sample is the shifted one, so quantiles `q` and `1 - q` add up to `2s - d`; for `max`, a cut from `i1` to `i2` of `N` continued points has `i1 + i2 = N` |
| C131 | `Props/Names`, `Props/RenamedFigures` | every definition is followed through an injective renaming, from the registry to each call of a figure; construction by cases on each validation step |
| C132 | `Props/ColumnOrder`, `Props/MovedFigures` | look-ups agree under a permutation of distinct names; every report is followed from there |
| C133 | `Props/ChainOrder`, `Props/OrderFigures`, `Props/AutoColours`, `Props/SharedColumns`, `Props/SummaryRows` | each loop over the chains is characterised by a relation between inputs and outputs, which a permutation carries over; the loop over histograms is a mapM over a filter with a commutative fold for the height; colours do not enter walks, distributions and summary plots; shades exist for all automatic colours (table), so they do not enter corner plots; chains with the same columns have the same default parameters in any order; but for titles and tick labels a row of plot_summary depends only on its chain, and the largest values do not depend on the order |
| C134 | `Props/WalkerSums` | sums over the blocks of `divide`; law of total covariance, also for the variances in Gelman and Rubin's statistic |
| C135 | `Props/ChainNames` | reports commute with an injective change of the names; both exceptions as negations |
| C136 | `Props/WalkerLook` | `divide` through the constructor, `userSet` of the parts, resolution of settings with both records of given settings |
| C137 | `Props/WalkersApart` | R² as a function of the distances of the walkers; monotonicity of both verdicts in the threshold |
| C138 | `Props/Narrowest` | points of the cumulative curve between vertices one step apart, C32 for these vertices |
| C139 | `Props/Rebuild` | the steps of the constructor on their own output |
| C140 | `Props/NamedFigures` | every step of a plot commutes with renaming, C135_settings for the registry |
| C141 | `Props/RowLabels`, `Props/SameView` | the chain made commutes with relabelling; reports use the labels only through their number; figures through views that agree by column |
| C142 | `Props/Normalisation` | a relation between chains that differ in the constant only, kept by every function that draws; the walk of the posterior is taken relative to its maximum |
| C143 | `Props/AskedArea` | the statistic and the area of an accepted chain are those of the arguments (C07); C25 for the marginal; then C26-C29, C31; C24, C35 and C36 for lists |
| C103 | `plotBars`, `plotDist`, `Props/Drawn`, `Props/Beyond` | ends of padded and unpadded bins, ranges of all statistics; concrete chains for the violations |
| C83, C88 | `Model/Shades`, `plotContour` | powers and logarithms, C54; composition of C51, C52, C75, C83 |

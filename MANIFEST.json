{
 "claims": [
  {
   "property": "C01",
   "status": "proved",
   "theorems": [
    "CC.C01_registry_is_ordered_map",
    "CC.C01_get_chain"
   ],
   "note": ""
  },
  {
   "property": "C02",
   "status": "proved",
   "theorems": [
    "CC.C02_rejected_calls_change_nothing",
    "CC.C02_calls_raise_iff"
   ],
   "note": ""
  },
  {
   "property": "C03",
   "status": "proved",
   "theorems": [
    "CC.C03_config_precedence"
   ],
   "note": "states with valid references; every reachable state has them (valid_run); chains given to get_summary as objects are not resolved, see C111"
  },
  {
   "property": "C04",
   "status": "proved",
   "theorems": [
    "CC.C04_final_chains_do_not_mutate",
    "CC.C04_plotting_changes_nothing"
   ],
   "note": ""
  },
  {
   "property": "C05",
   "status": "proved",
   "theorems": [
    "CC.C05_colours_run_out_after_88",
    "CC.C05_automatic_colours_distinct"
   ],
   "note": ""
  },
  {
   "property": "C06",
   "status": "proved",
   "theorems": [
    "CC.C06_automatic_shading"
   ],
   "note": "counts plot_contour and reads show_contour_labels before the override is applied, see C112 for overrides of these"
  },
  {
   "property": "C07",
   "status": "proved",
   "theorems": [
    "CC.C07_constructor_accepts_iff",
    "CC.C07_accepted_chain_guarantees"
   ],
   "note": ""
  },
  {
   "property": "C08",
   "status": "partial",
   "theorems": [
    "CC.C08_shift_partial",
    "CC.C08_weights_destroyed",
    "CC.C08_violated"
   ],
   "note": "the code violates the full property: the shift loop also shifts the weight column; negation proved for every accepted input and by witness"
  },
  {
   "property": "C09",
   "status": "proved",
   "theorems": [
    "CC.C09_data_columns",
    "CC.C09_plotting_columns",
    "CC.C09_all_columns"
   ],
   "note": ""
  },
  {
   "property": "C10",
   "status": "proved",
   "theorems": [
    "CC.C10_divide_lossless"
   ],
   "note": ""
  },
  {
   "property": "C11",
   "status": "partial",
   "theorems": [
    "CC.C11_divide_succeeds_partial",
    "CC.C11_shifted_chains_never_divide",
    "CC.C11_violated"
   ],
   "note": "the code violates the property for every shift_params chain (negation proved); proved for all others"
  },
  {
   "property": "C12",
   "status": "partial",
   "theorems": [
    "CC.C12_none_iff",
    "CC.C12_max_posterior_partial",
    "CC.C12_violated_wrong_point",
    "CC.C12_divided_walkers_fail"
   ],
   "note": "the code violates the property for row labels other than 0..n-1 (negation proved); proved for default labels"
  },
  {
   "property": "C13",
   "status": "partial",
   "theorems": [
    "CC.C13_covariance_matrix_partial",
    "CC.C13_default_columns",
    "CC.C13_covariance_invariant",
    "CC.C13_violated_shift"
   ],
   "note": "proved for all chains without shift_params; with it get_covariance always raises (C13_violated_shift)"
  },
  {
   "property": "C14",
   "status": "partial",
   "theorems": [
    "CC.C14_correlation_matrix_partial",
    "CC.C14_correlation_invariant",
    "CC.C14_violated_shift"
   ],
   "note": "proved for all chains without shift_params; with it get_correlation always raises (C14_violated_shift)"
  },
  {
   "property": "C15",
   "status": "partial",
   "theorems": [
    "CC.C15_correlation_succeeds_partial",
    "CC.C15_single_column_fails",
    "CC.C15_tables_succeed_partial",
    "CC.C15_tables_fail"
   ],
   "note": "the code violates the property for a single column, for every chain, in get_correlation and in both tables (negations proved); proved for two or more columns"
  },
  {
   "property": "C16",
   "status": "partial",
   "theorems": [
    "CC.C16_variable_selection_partial",
    "CC.C16_violated_empty",
    "CC.C16_numpyro_table"
   ],
   "note": "the code violates the empty-list clause for every sampler (negation proved); all other clauses proved"
  },
  {
   "property": "C17",
   "status": "partial",
   "theorems": [
    "CC.C17_aic_partial",
    "CC.C17_aic_raises",
    "CC.C17_aic_raises_witness",
    "CC.C17_bic_partial",
    "CC.C17_bic_nan",
    "CC.C17_dic"
   ],
   "note": "DIC proved for chains made without shift_params (otherwise dic() may raise, C127_violated_dic); the code violates the AIC part when num_eff_data_points = num_free_params + 1 (raises) and the BIC part when it is 0 (NaN): negations proved, everything else proved"
  },
  {
   "property": "C18",
   "status": "partial",
   "theorems": [
    "CC.C18_aic",
    "CC.C18_bic",
    "CC.C18_dic_partial",
    "CC.C18_violated"
   ],
   "note": "AIC and BIC in full; DIC but for chains whose posterior column is also their weight column, where adding a constant changes the weights (C18_violated)"
  },
  {
   "property": "C19",
   "status": "partial",
   "theorems": [
    "CC.C19_more_parameters_partial",
    "CC.C19_violated"
   ],
   "note": "violated for few data points (negation proved by witness); proved for more than num_free_params + 1 data points"
  },
  {
   "property": "C20",
   "status": "partial",
   "theorems": [
    "CC.C20_rows_listed_and_sorted",
    "CC.C20_rectangular_partial",
    "CC.C20_cells",
    "CC.C20_violated",
    "CC.C20_succeeds"
   ],
   "note": "the column specification has one column too many when the DIC column is off (negation proved for every registry); everything else proved"
  },
  {
   "property": "C21",
   "status": "proved",
   "theorems": [
    "CC.C21_gelman_rubin_verdict",
    "CC.C21_ratio_bound",
    "CC.C21_reorder_walkers",
    "CC.C21_affine",
    "CC.C21_constant_parameter_fails",
    "CC.C21_docstring_ratio"
   ],
   "note": "R is the ratio the code computes, which has an extra term B/(mn) compared with the docstring (C21_docstring_ratio)"
  },
  {
   "property": "C22",
   "status": "proved",
   "theorems": [
    "CC.C22_gelman_rubin",
    "CC.C22_geweke",
    "CC.C22_gelman_rubin_raises",
    "CC.C22_names",
    "CC.C22_unknown"
   ],
   "note": ""
  },
  {
   "property": "C23",
   "status": "proved",
   "theorems": [
    "CC.C23_geweke_windows",
    "CC.C23_windows_disjoint"
   ],
   "note": "window bounds in exact arithmetic; spectral estimate and normality test are parameters"
  },
  {
   "property": "C24",
   "status": "proved",
   "theorems": [
    "CC.C24_mask_intervals"
   ],
   "note": ""
  },
  {
   "property": "C25",
   "status": "proved",
   "theorems": [
    "CC.C25_marginal_valid",
    "CC.C25_marginal_exists",
    "CC.C25_kde_exists",
    "CC.megKde_kdeOk"
   ],
   "note": "for any kernel density estimator with nonnegative values; MegKDE is one (megKde_kdeOk)"
  },
  {
   "property": "C26",
   "status": "proved",
   "theorems": [
    "CC.C26_cumulative"
   ],
   "note": ""
  },
  {
   "property": "C27",
   "status": "proved",
   "theorems": [
    "CC.C27_mean"
   ],
   "note": ""
  },
  {
   "property": "C28",
   "status": "partial",
   "theorems": [
    "CC.C28_max_central_partial",
    "CC.C28_bracketing_violated",
    "CC.C28_violated"
   ],
   "note": "the code violates lower <= centre for skewed marginals (negation proved for a class of marginals and by an accepted chain); limits and centre proved"
  },
  {
   "property": "C29",
   "status": "proved",
   "theorems": [
    "CC.C29_max_summary"
   ],
   "note": "mass measured on the density continued by 1000 points on each side, as the code does"
  },
  {
   "property": "C30",
   "status": "proved",
   "theorems": [
    "CC.C30_gives_up_only_at_jump"
   ],
   "note": ""
  },
  {
   "property": "C31",
   "status": "proved",
   "theorems": [
    "CC.C31_hdi_mass"
   ],
   "note": "the search tolerance 1e-12 of the code is part of the statement"
  },
  {
   "property": "C32",
   "status": "proved",
   "theorems": [
    "CC.C32_hdi_narrowest"
   ],
   "note": ""
  },
  {
   "property": "C33",
   "status": "partial",
   "theorems": [
    "CC.C33_width_partial",
    "CC.C33_narrow_range",
    "CC.C33_violated"
   ],
   "note": "the code violates scale equivariance: ranges below 1e-12 give the whole range (negation proved); what remains proved is in C33_width_partial"
  },
  {
   "property": "C34",
   "status": "proved",
   "theorems": [
    "CC.C34_bands",
    "CC.C35_cut_exists_iff"
   ],
   "note": "when only isolated grid points reach the cut the HDI summary interval is reported, as the statement says"
  },
  {
   "property": "C35",
   "status": "partial",
   "theorems": [
    "CC.C35_cut_partial",
    "CC.C35_cut_exists_iff",
    "CC.C35_violated"
   ],
   "note": "location of the cut proved; the second clause is violated for peak densities below 1e-3, where the cut is half the peak for every requested mass (negation proved for all such marginals)"
  },
  {
   "property": "C36",
   "status": "proved",
   "theorems": [
    "CC.C36_multimodal_bounds",
    "CC.C36_bounds_of_bands"
   ],
   "note": ""
  },
  {
   "property": "C37",
   "status": "proved",
   "theorems": [
    "CC.C37_structure",
    "CC.C37_lists"
   ],
   "note": "chains given as objects; for repeated chain names the entry is the last chain's"
  },
  {
   "property": "C38",
   "status": "proved",
   "theorems": [
    "CC.C38_units",
    "CC.C38_origin"
   ],
   "note": "C38_origin covers in addition HDI and multimodal summaries under changes of origin; equality includes the failure cases"
  },
  {
   "property": "C39",
   "status": "partial",
   "theorems": [
    "CC.C39_row_order",
    "CC.C39_weight_scale",
    "CC.C39_rows",
    "CC.C39_weights",
    "CC.C39_row_order_kde_partial",
    "CC.C39_weight_scale_kde"
   ],
   "note": "proved in full without KDE (all statistics, multimodal included; from the constructor on, with shift_params or not); with KDE the weight normalisation is proved in full and the row order for equal weights; with unequal weights the estimator itself depends on the row order (C48_order_violated)"
  },
  {
   "property": "C40",
   "status": "partial",
   "theorems": [
    "CC.C40_display_partial",
    "CC.C40_violated"
   ],
   "note": "half a unit of the last digit proved except for errors between 10 and 100, where two roundings give 0.55 units (proved) and half a unit fails (witness proved)"
  },
  {
   "property": "C41",
   "status": "proved",
   "theorems": [
    "CC.C41_two_digits"
   ],
   "note": ""
  },
  {
   "property": "C42",
   "status": "partial",
   "theorems": [
    "CC.C42_formats_partial",
    "CC.C42_modes_partial",
    "CC.C42_violated"
   ],
   "note": "the code violates the property for three zero limits (raises; negation proved); everything else proved"
  },
  {
   "property": "C43",
   "status": "partial",
   "theorems": [
    "CC.C43_table",
    "CC.C43_rectangular_partial",
    "CC.C43_violated"
   ],
   "note": "contents proved for every request; rows are too short when a chain is requested twice in a transposed table (negation proved)"
  },
  {
   "property": "C44",
   "status": "partial",
   "theorems": [
    "CC.C44_verbatim_partial",
    "CC.C44_violated"
   ],
   "note": "proved for captions and labels without percent signs; with one the code never produces the table as given (negation proved)"
  },
  {
   "property": "C45",
   "status": "proved",
   "theorems": [
    "CC.C45_extents",
    "CC.C45_constant"
   ],
   "note": ""
  },
  {
   "property": "C46",
   "status": "proved",
   "theorems": [
    "CC.C46_grid_bins",
    "CC.C46_violated",
    "CC.C46_constant"
   ],
   "note": "for grids whose spacing shrinks to half of the first or less the bins mix values (witness C46_violated); the property statement excludes them"
  },
  {
   "property": "C47",
   "status": "proved",
   "theorems": [
    "CC.C47_mass_preserved",
    "CC.C47_range",
    "CC.C47_gaussian_kernel",
    "CC.C47_gaussian_filter"
   ],
   "note": ""
  },
  {
   "property": "C48",
   "status": "partial",
   "theorems": [
    "CC.C48_positive",
    "CC.C48_weights",
    "CC.C48_defined",
    "CC.C48_too_few",
    "CC.C48_order_partial",
    "CC.C48_order_violated"
   ],
   "note": "everything proved except permutation invariance when fewer than nmin points are in reach and equally distant points have different weights; there the code violates it for every conforming neighbour search (C48_order_violated)"
  },
  {
   "property": "C49",
   "status": "partial",
   "theorems": [
    "CC.C49_affine_partial",
    "CC.C49_units",
    "CC.C49_violated"
   ],
   "note": "proved for positive rescalings and shifts of each coordinate unconditionally, and for every invertible affine map without weight ties among the nearest points; with ties a conforming neighbour search violates it (C49_violated)"
  },
  {
   "property": "C50",
   "status": "partial",
   "theorems": [
    "CC.C50_bandwidth_partial",
    "CC.C50_two_dimensions",
    "CC.C50_plot_dist",
    "CC.C50_violated",
    "CC.C50_plot_dist_violated",
    "CC.truncation_lt"
   ],
   "note": "one-dimensional marginals proved; the code violates the property in two dimensions and in plot_dist, where the setting becomes the truncation (proved what is computed instead, and negations by witness)"
  },
  {
   "property": "C51",
   "status": "proved",
   "theorems": [
    "CC.C51_highest_density"
   ],
   "note": "for every order numpy may sort equal values in"
  },
  {
   "property": "C52",
   "status": "proved",
   "theorems": [
    "CC.C52_levels",
    "CC.C52_level_is_mass"
   ],
   "note": ""
  },
  {
   "property": "C53",
   "status": "partial",
   "theorems": [
    "CC.C53_names_partial",
    "CC.C53_violated_alias_e",
    "CC.C53_format_idempotent",
    "CC.C53_unknown_rejected",
    "CC.C53_violated_empty"
   ],
   "note": "the alias 'e' raises KeyError and the empty string IndexError (negations proved); everything else proved"
  },
  {
   "property": "C54",
   "status": "proved",
   "theorems": [
    "CC.C54_scaled_channels",
    "CC.C54_monotone_identity_black"
   ],
   "note": ""
  },
  {
   "property": "C55",
   "status": "proved",
   "theorems": [
    "CC.C55_columns",
    "CC.C55_chain_columns",
    "CC.C55_chains",
    "CC.finalDict_eq"
   ],
   "note": ""
  },
  {
   "property": "C56",
   "status": "proved",
   "theorems": [
    "CC.C56_panels",
    "CC.C56_once",
    "CC.C56_plot"
   ],
   "note": ""
  },
  {
   "property": "C57",
   "status": "partial",
   "theorems": [
    "CC.C57_plot_partial",
    "CC.C57_walks_partial",
    "CC.C57_distributions_partial",
    "CC.C57_summary_partial",
    "CC.C57_violated_summary",
    "CC.C57_violated_minor",
    "CC.C57_violated_colourbar",
    "CC.C57_request"
   ],
   "note": "proved for all four plots on linear axes, and for titles and major tick labels on logarithmic ones outside of plot_summary; the three violations are proved for every figure of the kind, with concrete figures as examples"
  },
  {
   "property": "C58",
   "status": "partial",
   "theorems": [
    "CC.C58_plot",
    "CC.C58_walks",
    "CC.C58_summary",
    "CC.C58_distributions_partial",
    "CC.C58_violated"
   ],
   "note": "proved for plot, plot_walks and plot_summary; plot_distributions draws every truth horizontally at the wrong axis (C58_violated, for every figure)"
  },
  {
   "property": "C59",
   "status": "partial",
   "theorems": [
    "CC.C59_limits_partial",
    "CC.C59_violated"
   ],
   "note": "what is missing is the property itself: each limit belongs to the column of the panel to the right (C59_limits_partial); C59_violated is a concrete figure whose curve leaves its panel"
  },
  {
   "property": "C60",
   "status": "proved",
   "theorems": [
    "CC.C60_covers",
    "CC.C60_custom",
    "CC.C60_sanitise"
   ],
   "note": ""
  },
  {
   "property": "C61",
   "status": "proved",
   "theorems": [
    "CC.C61_walks",
    "CC.C61_extra",
    "CC.C61_figure",
    "CC.C61_cloud"
   ],
   "note": "the bound on clouds is for num_cloud at least 1/2"
  },
  {
   "property": "C62",
   "status": "proved",
   "theorems": [
    "CC.C62_validation",
    "CC.C62_marker"
   ],
   "note": "the set of filled markers (matplotlib's Line2D.filled_markers) is a parameter"
  },
  {
   "property": "C63",
   "status": "proved",
   "theorems": [
    "CC.C63_isolated"
   ],
   "note": ""
  },
  {
   "property": "C64",
   "status": "proved",
   "theorems": [
    "CC.C64_matrix_table",
    "CC.C64_tables",
    "CC.C64_chain"
   ],
   "note": ""
  },
  {
   "property": "C65",
   "status": "proved",
   "theorems": [
    "CC.C65_plot",
    "CC.C65_distributions"
   ],
   "note": ""
  },
  {
   "property": "C66",
   "status": "proved",
   "theorems": [
    "CC.C66_plot",
    "CC.C66_walks",
    "CC.C66_walks_absent",
    "CC.C66_distributions",
    "CC.C66_summary"
   ],
   "note": "plot_walks: for parameters some shown chain has; the panel of any other requested parameter gets no range (C66_walks_absent)"
  },
  {
   "property": "C67",
   "status": "partial",
   "theorems": [
    "CC.C67_columns_partial",
    "CC.C67_violated"
   ],
   "note": "proved for distinct names; too few, repeated and surplus names are accepted silently (negation proved)"
  },
  {
   "property": "C68",
   "status": "partial",
   "theorems": [
    "CC.C68_parts_partial",
    "CC.C68_mixed",
    "CC.C68_violated"
   ],
   "note": "what is missing is the property itself: the parts are blocks of consecutive flattened samples (C68_parts_partial), so the first part continues with the second walker (C68_mixed, every run); concrete witness C68_violated"
  },
  {
   "property": "C69",
   "status": "partial",
   "theorems": [
    "CC.C69_columns_partial",
    "CC.C69_violated",
    "CC.C69_violated_rows"
   ],
   "note": "proved without shift_params and with the number of bins given or fewer than 36**4 rows (the automatic number of bins depends on the number of rows only below that); with shift_params violated (negation proved), and with the automatic number of bins and very many rows as well (negation proved: 2*101**4 rows)"
  },
  {
   "property": "C70",
   "status": "partial",
   "theorems": [
    "CC.C70_shown_partial",
    "CC.C70_violated"
   ],
   "note": "proved for walks not longer than the one drawn last; longer ones are cut off (iff), concrete witness"
  },
  {
   "property": "C71",
   "status": "partial",
   "theorems": [
    "CC.C71_average_partial",
    "CC.C71_violated_one",
    "CC.C71_violated_long"
   ],
   "note": "proved for windows of at least two and at most all steps; negations proved for the other windows"
  },
  {
   "property": "C72",
   "status": "partial",
   "theorems": [
    "CC.C72_requested",
    "CC.C72_points_partial",
    "CC.C72_violated"
   ],
   "note": "which chains are reported is proved; the points are proved for chains with default row labels; a registered walker of a divided chain loses the points of all chains (negation proved)"
  },
  {
   "property": "C73",
   "status": "proved",
   "theorems": [
    "CC.C73_marker"
   ],
   "note": ""
  },
  {
   "property": "C74",
   "status": "partial",
   "theorems": [
    "CC.C74_exists_partial",
    "CC.C74_exists_iff",
    "CC.C74_violated",
    "CC.C74_violated_two",
    "CC.C74_violated_grid",
    "CC.C74_violated_summary",
    "CC.C74_marker"
   ],
   "note": "for the statistic max without KDE: a summary exists iff a sample lies in the computed range (of more than a point); IndexError proved for constant and two-valued parameters, for grids with a constant, for get_summary as a whole, and for markers"
  },
  {
   "property": "C75",
   "status": "proved",
   "theorems": [
    "CC.C75_cells",
    "CC.C75_mass"
   ],
   "note": ""
  },
  {
   "property": "C76",
   "status": "partial",
   "theorems": [
    "CC.C76_exchange_partial",
    "CC.C76_exchange_kde_partial",
    "CC.C76_kde_axes",
    "CC.C76_violated"
   ],
   "note": "proved without KDE; with KDE proved when both axes have the same number of cells and equally distant rows have equal weights; on grids with different numbers of values violated (negation proved)"
  },
  {
   "property": "C77",
   "status": "partial",
   "theorems": [
    "CC.C77_pairs",
    "CC.C77_hists_partial",
    "CC.C77_walks",
    "CC.C77_distributions",
    "CC.C77_summary",
    "CC.C77_violated"
   ],
   "note": "proved for all four plots except the last histogram with flip and a number of parameters other than two, where the density axis becomes logarithmic (C77_violated, every figure of the kind, concrete figure as example)"
  },
  {
   "property": "C78",
   "status": "partial",
   "theorems": [
    "CC.C78_pairs",
    "CC.C78_hists",
    "CC.C78_named_partial",
    "CC.C78_walks",
    "CC.C78_distributions_partial",
    "CC.C78_summary",
    "CC.C78_violated_single",
    "CC.C78_violated_pair",
    "CC.C78_violated_distributions"
   ],
   "note": "no label is wrong except in plot_distributions with configured labels (violated); every parameter is named except with flip and a single panel (violated)"
  },
  {
   "property": "C79",
   "status": "proved",
   "theorems": [
    "CC.C79_contour",
    "CC.C79_plot"
   ],
   "note": "for every conforming neighbour search and every order numpy may sort equal values in; what matplotlib interpolates between the cells is not modelled"
  },
  {
   "property": "C80",
   "status": "partial",
   "theorems": [
    "CC.C80_shown",
    "CC.C80_entries_partial",
    "CC.C80_handles",
    "CC.C80_handle_partial",
    "CC.C80_location",
    "CC.C80_blank_partial",
    "CC.C80_markers",
    "CC.C80_exists",
    "CC.C80_violated_flip",
    "CC.C80_violated_single",
    "CC.C80_violated_cloud",
    "CC.C80_violated_reverse",
    "CC.C80_violated_artists",
    "CC.C80_violated_markers"
   ],
   "note": "entries, colours and configured locations are proved without reverse; the default panel is proved blank for three or more parameters or two histograms not flipped; negations proved for the rest"
  },
  {
   "property": "C83",
   "status": "partial",
   "theorems": [
    "CC.C83_colours_partial",
    "CC.C83_lines",
    "CC.C83_violated",
    "CC.C83_violated_colour",
    "CC.C83_violated_gradient"
   ],
   "note": "number, order and exact channels of the colours are proved for gradients between -2 and 10, with the brightness to the power ln 10; that it is not the brightness itself is proved for every gradient between 0 and 10, ValueError for the other gradients"
  },
  {
   "property": "C84",
   "status": "partial",
   "theorems": [
    "CC.C84_sizes_partial",
    "CC.C84_keywords",
    "CC.C84_violated_grow",
    "CC.C84_violated_factor",
    "CC.C84_violated_string"
   ],
   "note": "sizes given as such and the growth are proved; negations for the documented inches per parameter, the scaling by a number and the key words as strings"
  },
  {
   "property": "C88",
   "status": "partial",
   "theorems": [
    "CC.C88_drawn_partial",
    "CC.C88_violated_empty",
    "CC.C88_violated_sigmas",
    "CC.C88_violated_chains",
    "CC.C83_violated_gradient"
   ],
   "note": "proved for two or more increasing nonnegative sigmas (or a single one that is not filled), opacities up to 1, colours of six hex digits and gradients between -2 and 10; negations proved, on accepted chains in C88_violated_chains"
  },
  {
   "property": "C85",
   "status": "partial",
   "theorems": [
    "CC.C85_plot_partial",
    "CC.C85_distributions_partial",
    "CC.C85_violated"
   ],
   "note": "proved for all statistics of chains that are not multimodal and for multimodal chains with several bands; for a single band the title is another bound (negation proved: a concrete chain whose title and reported summary read differently)"
  },
  {
   "property": "C89",
   "status": "partial",
   "theorems": [
    "CC.C89_summaries_partial",
    "CC.C89_violated"
   ],
   "note": "proved exactly when a summary exists and that otherwise ValueError is raised; the negation is a grid of two points of equal weight"
  },
  {
   "property": "C82",
   "status": "partial",
   "theorems": [
    "CC.C82_labels_partial",
    "CC.C82_fallback",
    "CC.C82_distinct_partial",
    "CC.C82_violated"
   ],
   "note": "which contours are labelled, with which mass and to which precision, and that labels do not decrease; labels that are equal differ by at most a percent or a tenth; the negation is 5 and 6 sigma. If no level crosses the surface, matplotlib keeps its least value as only level (C82_fallback)"
  },
  {
   "property": "C81",
   "status": "partial",
   "theorems": [
    "CC.C81_same_partial",
    "CC.C81_violated_label",
    "CC.C81_violated_grid"
   ],
   "note": "curve, shading and title text proved for chains that are not multimodal, without KDE, with bar_shade, unless the chain is a smoothed grid; negations for configured labels and for smoothed grids; shade_alpha times its gradient factor must be between 0 and 1 for the shading to be accepted"
  },
  {
   "property": "C86",
   "status": "partial",
   "theorems": [
    "CC.C86_panels",
    "CC.C86_steps_partial",
    "CC.C86_violated_steps",
    "CC.C86_violated_limit"
   ],
   "note": "order, labels and values of the panels; that points stand at their step is proved for fewer than 200000 samples; negations for at least 200000 different samples (renumbered) and for 100001 to 199999 samples (not thinned)"
  },
  {
   "property": "C87",
   "status": "proved",
   "theorems": [
    "CC.C87_registry",
    "CC.C87_plot",
    "CC.C87_walks",
    "CC.C87_summary",
    "CC.C87_distributions",
    "CC.C87_names"
   ],
   "note": "C87_names: the name of a truth is shown nowhere. The direction of the lines of plot_distributions is C58"
  },
  {
   "property": "C90",
   "status": "proved",
   "theorems": [
    "CC.C90_parabola",
    "CC.C90_line",
    "CC.C90_density",
    "CC.C90_kde"
   ],
   "note": ""
  },
  {
   "property": "C91",
   "status": "partial",
   "theorems": [
    "CC.C91_request_partial",
    "CC.C91_unknown",
    "CC.C91_violated_one",
    "CC.C91_violated_numbers"
   ],
   "note": "proved for lists of names and chains, dictionaries and lists of columns; negations for single chains, indices and numbers of columns"
  },
  {
   "property": "C92",
   "status": "partial",
   "theorems": [
    "CC.C92_walks_partial",
    "CC.C92_distributions",
    "CC.C92_summary",
    "CC.C92_violated"
   ],
   "note": "distributions and summaries proved in full; for plot_walks all but numbers, for which the negation is proved; widths of texts are parameters"
  },
  {
   "property": "C93",
   "status": "partial",
   "theorems": [
    "CC.C93_bars",
    "CC.C93_clouds_partial",
    "CC.C93_violated"
   ],
   "note": "number, columns, labels of the bars and that each has the scale of some cloud proved in full; the scale of every cloud if no other chain is coloured by the same column; negation for two chains"
  },
  {
   "property": "C94",
   "status": "partial",
   "theorems": [
    "CC.C94_diagonal",
    "CC.C94_width",
    "CC.C94_figures",
    "CC.C94_height_partial",
    "CC.C94_violated"
   ],
   "note": "direction, position and width proved in full; height for figures not wider than high; negation for a summary of 10 by 1 inches. Extents of letters are parameters, proportional to the font size; watermarks on a panel are compared with the size of the figure, as in the code"
  },
  {
   "property": "C95",
   "status": "partial",
   "theorems": [
    "CC.C95_settings",
    "CC.C95_restore_partial",
    "CC.C95_restored",
    "CC.C95_violated_untouched",
    "CC.C95_violated_two"
   ],
   "note": "settings proved in full; restoring if nothing changes the settings between the creation of the consumer and its first plot; C95_restored says what happens in general; negations proved"
  },
  {
   "property": "C96",
   "status": "partial",
   "theorems": [
    "CC.C96_legend",
    "CC.C96_watermark_partial",
    "CC.C96_violated",
    "CC.C96_files"
   ],
   "note": "legend and files proved in full, watermarks but for rotation and fontsize; negation proved"
  },
  {
   "property": "C97",
   "status": "partial",
   "theorems": [
    "CC.C97_covariance",
    "CC.C97_numpyro_partial",
    "CC.C97_arviz",
    "CC.C97_violated"
   ],
   "note": "covariance and arviz (scalar variables) proved in full; numpyro for scalars, with the exact layout of vectors; negation for a vector of two components. The random rows are a parameter of the right shape"
  },
  {
   "property": "C98",
   "status": "proved",
   "theorems": [
    "CC.C98_made",
    "CC.C98_fills",
    "CC.C98_apart",
    "CC.C98_equal",
    "CC.C98_flipped",
    "CC.C98_margins"
   ],
   "note": "exact arithmetic; matplotlib's GridSpec positions are modelled from its documented formula"
  },
  {
   "property": "C99",
   "status": "partial",
   "theorems": [
    "CC.C99_dictionary_partial",
    "CC.C99_violated",
    "CC.C99_before"
   ],
   "note": "dictionaries proved in full; negation for every Series; C99_before proves that the validator would do what is documented if it ran before pydantic's own check"
  },
  {
   "property": "C100",
   "status": "partial",
   "theorems": [
    "CC.C100_offsets_partial",
    "CC.C100_violated"
   ],
   "note": "no factor or offset is lost; negation for every figure: labels without one get a blank at the end"
  },
  {
   "property": "C101",
   "status": "proved",
   "theorems": [
    "CC.C101_plot",
    "CC.C101_distributions",
    "CC.C101_summary"
   ],
   "note": "for any nonnegative kernel density estimator (MegKDE is one, megKde_kdeOk); summarised_of_make: accepted chains without shift_params meet the hypotheses"
  },
  {
   "property": "C102",
   "status": "partial",
   "theorems": [
    "CC.C102_aic",
    "CC.C102_bic",
    "CC.C102_dic_partial",
    "CC.C102_dic_weights",
    "CC.C102_covariance_rows",
    "CC.C102_covariance_weights",
    "CC.C102_correlation",
    "CC.C102_violated"
   ],
   "note": "AIC, BIC, covariances and correlations proved in full, with shift_params or not; DIC for every normalisation of the weights, and for other row orders if all samples nearest to the mean give the same value (shift_params off); negation for whatever way scipy breaks ties"
  },
  {
   "property": "C103",
   "status": "partial",
   "theorems": [
    "CC.C103_drawn_partial",
    "CC.C103_missed",
    "CC.C103_single_violated",
    "CC.C103_violated"
   ],
   "note": "proved for smoothed chains, KDEs, grids and every statistic but HDI, and for unsmoothed HDI chains that are not multimodal if the interval meets the curve (if it does not, drawing raises a ValueError); negations: an accepted chain of four samples with a single mode whose interval ends before the curve begins, for plot, plot_distributions and plot_dist, and an accepted multimodal chain of three samples, for plot and plot_distributions, both without smoothing"
  },
  {
   "property": "C104",
   "status": "proved",
   "theorems": [
    "CC.C104_numbers",
    "CC.C104_text"
   ],
   "note": "matplotlib's rgb2hex is part of the trusted reading: three or four numbers from 0 to 1, rounded half to even after multiplication by 255"
  },
  {
   "property": "C105",
   "status": "partial",
   "theorems": [
    "CC.C105_default",
    "CC.C105_colormap_partial",
    "CC.C105_brightness",
    "CC.C105_violated"
   ],
   "note": "proved for scales that are not negative; for negative scales violated (negation proved)"
  },
  {
   "property": "C106",
   "status": "partial",
   "theorems": [
    "CC.C106_correlation",
    "CC.C106_sample_partial",
    "CC.C106_violated_single",
    "CC.C106_violated_seed"
   ],
   "note": "shape, names, correlation matrix and acceptance proved for every number of rows but one; one row raises ValueError and the seed does not determine the samples (negations proved); scipy's normal distribution is a parameter"
  },
  {
   "property": "C107",
   "status": "partial",
   "theorems": [
    "CC.C107_nested",
    "CC.C107_modes",
    "CC.C107_hdi_partial",
    "CC.C107_whole_range",
    "CC.C107_violated"
   ],
   "note": "limits and centres proved for all statistics but HDI, and the modes of multimodal summaries with two or more modes; the HDI up to 1e-12 for grid points more than 1e-12 apart; negation: an accepted grid chain with the points 0 and 1e-9, whose interval for area 0 is wider than that for area 1/2"
  },
  {
   "property": "C108",
   "status": "partial",
   "theorems": [
    "CC.C108_partial",
    "CC.C108_lowest",
    "CC.C108_violated"
   ],
   "note": "proved: at most 2e-5 and the shares of three of the 2000 cells, one of them the lowest, are left out; without padding all of the lowest cell and the upper half of the highest are left out (C108_lowest); negation: an accepted chain with 96 percent of its weight at its least value, whose summary is centred above the next value. Bins of grid chains are C46"
  },
  {
   "property": "C109",
   "status": "partial",
   "theorems": [
    "CC.C109_inside_partial",
    "CC.C109_violated"
   ],
   "note": "proved for every statistic but HDI, and for HDI and modes on grids; otherwise proved up to a fifth of the range on either side; negation: an accepted chain with the samples 0, 4 and 2000 whose HDI has a negative lower limit"
  },
  {
   "property": "C110",
   "status": "partial",
   "theorems": [
    "CC.C110_text_partial",
    "CC.C110_violated"
   ],
   "note": "proved for names, labels and fill texts without ampersands, transposed tables without a chain requested twice (C43); numbers are proved to contain no ampersands; negation for every chain with an ampersand in its name, with a concrete table"
  },
  {
   "property": "C111",
   "status": "partial",
   "theorems": [
    "CC.C111_given_partial",
    "CC.C111_all",
    "CC.C111_ignored",
    "CC.C111_violated"
   ],
   "note": "proved for overrides of settings that no summary uses; the override is not looked at for chains given as objects (C111_ignored), so that one of the statistic has no effect on them (concrete negation)"
  },
  {
   "property": "C112",
   "status": "partial",
   "theorems": [
    "CC.C112_same_partial",
    "CC.C112_summary_partial",
    "CC.C112_violated_multimodal",
    "CC.C112_violated_shift",
    "CC.C112_violated_labels",
    "CC.C112_violated_contours"
   ],
   "note": "resolved settings and summaries proved equal if the override sets neither shift_params, statistics to None, multimodal without statistics, nor the settings from which automatic ones are chosen; negations: multimodal without HDI is not refused, shift_params moves no sample, contour labels do not halve the opacity, plot_contour does not change the number of contour chains"
  },
  {
   "property": "C113",
   "status": "proved",
   "theorems": [
    "CC.C113_aic",
    "CC.C113_bic",
    "CC.C113_dic",
    "CC.C113_aic_raising",
    "CC.C113_row",
    "CC.C113_summary",
    "CC.C113_registered",
    "CC.C113_limits",
    "CC.C113_gelman"
   ],
   "note": "messages of calls that return; for aic() also those before an exception; AIC and DIC name chains by their attribute, BIC by their key. Python's suppression of repeated warnings, the levels of loggers and the line of geweke are not modelled"
  },
  {
   "property": "C114",
   "status": "partial",
   "theorems": [
    "CC.C114_rows",
    "CC.C114_rows_kde_partial",
    "CC.C114_weights_partial",
    "CC.C114_units",
    "CC.C114_empty_last",
    "CC.C114_violated"
   ],
   "note": "row order proved without KDE, and with KDE for equal weights (otherwise C48_order_violated); normalisation of the weights proved for histograms without empty cells and for KDEs, given that argsort is unaffected by positive factors; units and origin of parameters that are not constant proved, KDE or not; empty cells lie outside if every filled one holds more than 1e-16; negation: an accepted chain of four samples whose contours change if its weights are multiplied by 1e-17"
  },
  {
   "property": "C115",
   "status": "partial",
   "theorems": [
    "CC.C115_bars_partial",
    "CC.C115_violated",
    "CC.C115_violated_modes"
   ],
   "note": "proved for chains with one mode and every statistic but max_central; negations: an accepted grid of two points whose max_central bar starts below its centre, which is below the lower limit, and an accepted multimodal grid of three points with two reported modes and one bar across the gap between them"
  },
  {
   "property": "C116",
   "status": "partial",
   "theorems": [
    "CC.C116_summary_partial",
    "CC.C116_table_partial",
    "CC.C116_plot_partial",
    "CC.C116_distributions",
    "CC.C116_plot_summary",
    "CC.C116_violated",
    "CC.C116_violated_plot",
    "CC.C116_violated_summary"
   ],
   "note": "plot_distributions, plot_summary and the surfaces of plot proved for all inputs; get_summary, tables and the histograms of plot if no parameter has the name of the weights or posteriors of one of the chains; negation: whenever one has, these are summarised and drawn, with a concrete pair of accepted chains"
  },
  {
   "property": "C117",
   "status": "partial",
   "theorems": [
    "CC.C117_cells_partial",
    "CC.C117_exists_partial",
    "CC.C117_violated",
    "CC.C117_violated_blank",
    "CC.C117_violated_constant",
    "CC.C117_violated_cloud"
   ],
   "note": "cells proved for chosen parameters that are plotted for some chain; existence proved if all plotted parameters have summaries; negations: an exception in the summary of any plotted parameter is raised by every table (concretely a grid with a constant parameter), and the parameter that colours a cloud gets the fill text though get_summary reports it"
  },
  {
   "property": "C118",
   "status": "partial",
   "theorems": [
    "CC.C118_surface_partial",
    "CC.C118_curve_partial",
    "CC.C118_bars_partial",
    "CC.C118_contours_partial",
    "CC.C118_ignored",
    "CC.C118_violated_kde",
    "CC.C118_violated_empty"
   ],
   "note": "surfaces of contours and the curve of plot_dist proved with a KDE and without smoothing; marginals, and the curve of intervals, for histograms without smoothing; larger powers tighten contours proved for KDEs and for histograms whose weights are all at least 1 or that have no empty cell, given that argsort only compares; negations: with a KDE marginals and summaries are the same for all powers, concretely an accepted chain whose plot_dist curve grows everywhere while its summary stays; an accepted chain of weights 1/1000 whose empty cells are enclosed before filled ones at power 6"
  },
  {
   "property": "C119",
   "status": "partial",
   "theorems": [
    "CC.C119_units",
    "CC.C119_walkers",
    "CC.C119_short",
    "CC.C119_violated"
   ],
   "note": "units and origin proved for all chains and every normality test; order of walkers for every test that ignores order; short chains are rejected by every test that returns NaN for NaN; negation: for every test that depends on number, skewness and kurtosis of the z scores and passes any z scores at all, and every bound, an accepted chain of 40 steps per walker that passes with the default arguments though all its z scores exceed the bound"
  },
  {
   "property": "C120",
   "status": "partial",
   "theorems": [
    "CC.C120_summary",
    "CC.C120_contours",
    "CC.C120_aic",
    "CC.C120_bic",
    "CC.C120_dic_partial",
    "CC.C120_covariance_partial",
    "CC.C120_correlation_partial",
    "CC.C120_violated",
    "CC.C120_kde_violated",
    "CC.C120_bins_violated"
   ],
   "note": "summaries and contours proved without KDE for grids, chains with bins set and fewer than 36**4 rows per column; AIC and BIC proved; DIC where it is unambiguous; correlations proved for positive weights and two or more samples, and covariances up to the exact ratio of normalisations; negations for covariances, for KDEs and for the number of bins of very long chains"
  },
  {
   "property": "C121",
   "status": "partial",
   "theorems": [
    "CC.C121_close_partial",
    "CC.C121_order",
    "CC.C121_ignored",
    "CC.C121_violated"
   ],
   "note": "explicit bound on the distance of unweighted means proved; order, units and origin proved; that both diagnostics ignore the weights is proved for every chain, and for every bound an accepted chain that passes though the weighted means of its walkers are farther apart"
  },
  {
   "property": "C122",
   "status": "partial",
   "theorems": [
    "CC.C122_points_partial",
    "CC.C122_hidden",
    "CC.C122_violated"
   ],
   "note": "points proved visible for chains that show neither contours nor a cloud, for grids, and for coordinates with more than the threshold fraction of the weight on both sides; negation: the axes of a figure of one chain with contours or a cloud never reach its extreme samples, with a concrete figure of an accepted chain whose point is outside, and truth lines at every value from there on"
  },
  {
   "property": "C123",
   "status": "partial",
   "theorems": [
    "CC.C123_surface",
    "CC.C123_histogram",
    "CC.C123_distributions",
    "CC.C123_walks",
    "CC.C123_summary_partial",
    "CC.C123_violated",
    "CC.C123_violated_witness"
   ],
   "note": "Proved for plot (pairs; histograms that flip cannot rotate; up to ticks and axis labels, which depend on the place of a panel), plot_distributions and plot_walks (all calls, any number of columns per row, with or without weights and posterior), and plot_summary with error bars. plot_summary without error bars violates it: the limits at plotter.py 674-677 are shifted by one panel, so the panel of a parameter is given the vertical range of the parameter that follows, or none if it is the last (C123_violated for every such figure, C123_violated_witness for a concrete one)."
  },
  {
   "property": "C124",
   "status": "partial",
   "theorems": [
    "CC.C124_added",
    "CC.C124_marker",
    "CC.C124_removed_partial",
    "CC.C124_violated_removed",
    "CC.C124_violated_given"
   ],
   "note": "Adding a chain or a marker is proved in full (a marker leaves every setting of all chains, also the shading, unchanged; a further chain below five chains with contours leaves the flags for shading unchanged). Removing a chain leaves those before it, and if it had a colour of its own also those after it, as they are. Violated: when a chain with an automatic colour is removed, the next chain with an automatic colour changes to the colour of the removed one (C124_violated_removed, for every such consumer); and the colour given for one chain may be the automatic colour of another, e.g. for a chain with color=\"blue\" beside one without a colour (C124_violated_given)."
  },
  {
   "property": "C125",
   "status": "partial",
   "theorems": [
    "CC.C125_plot_apart",
    "CC.C125_plot_partial",
    "CC.C125_histogram",
    "CC.C125_distributions",
    "CC.C125_truths",
    "CC.C125_violated_plot",
    "CC.C125_violated_walks"
   ],
   "note": "Proved for histograms of plot and for plot_distributions; on panels of two parameters for what is of the same kind, and for everything if the zorders differ by more than 7; truths whose zorder exceeds that of a chain by more than 2 (by default 100 against 10) are over all of the chain. Violated on panels of two parameters (C125_violated_plot: if the zorders differ by 1 to 4, the cloud of the upper chain is under the contours and the point of the lower one) and on walks (C125_violated_walks: the zorder is ignored). Trusted: matplotlib draws by zorder, in the order of the calls where equal, and gives labels the zorder of their lines plus 2, collections 1, error bars 2."
  },
  {
   "property": "C126",
   "status": "partial",
   "theorems": [
    "CC.C126_surface",
    "CC.C126_histogram",
    "CC.C126_distributions",
    "CC.C126_walks",
    "CC.C126_summary",
    "CC.C126_titles",
    "CC.C126_violated_titles",
    "CC.C126_violated_witness"
   ],
   "note": "What is drawn for a chain is proved to be the same in all four figures, and the titles of plot depend only on the chains with contours. Violated for the titles of plot_distributions: if a chain without contours (e.g. a marker), for which nothing is drawn there, is plotted with a chain, all titles vanish (C126_violated_titles for every such figure, C126_violated_witness). Histograms of plot are compared if both are turned or both are not (flip). Colours belong to the final chains, which both figures share; for other consumers see C124. Ranges of axes do depend on the other chains (C60)."
  },
  {
   "property": "C127",
   "status": "partial",
   "theorems": [
    "CC.C127_aic_partial",
    "CC.C127_bic_partial",
    "CC.C127_dic_partial",
    "CC.C127_best",
    "CC.C127_violated_aic",
    "CC.C127_violated_bic",
    "CC.C127_violated_bic_witness",
    "CC.C127_violated_dic"
   ],
   "note": "Proved for every pair of registries for which the criterion returns (BIC: without chains of zero data points). Violated otherwise: one chain with num_free_params + 1 data points makes aic() raise for all, one with zero data points makes every BIC infinite or NaN, one made with shift_params makes dic() raise; each with a witness of accepted chains."
  },
  {
   "property": "C128",
   "status": "partial",
   "theorems": [
    "CC.C128_aic",
    "CC.C128_bic",
    "CC.C128_max_posterior",
    "CC.C128_covariance",
    "CC.C128_correlation",
    "CC.C128_dic_partial",
    "CC.C128_violated_dic"
   ],
   "note": "AIC, BIC, best point, covariance and correlation proved in full; DIC for offsets, sign changes and chains of one parameter (when the samples nearest to the mean agree). Missing, because the code violates it: other units of one of several parameters — griddata(method='nearest') measures distances in mixed units, so the DIC and the order of preference change (C128_violated_dic)."
  },
  {
   "property": "C129",
   "status": "partial",
   "theorems": [
    "CC.C129_equal_tailed_partial",
    "CC.C129_peak_partial",
    "CC.C129_text_partial",
    "CC.C129_violated_equal_tailed",
    "CC.C129_violated_chain",
    "CC.C129_violated_range",
    "CC.C129_violated_text",
    "CC.C129_hdi_width_partial",
    "CC.C129_violated_hdi",
    "CC.C129_violated_hdi_chain"
   ],
   "note": "Proved: limits and centre come out at exactly -(u + d), -(x + d), -(l + d) with d a 9999th of the range; the peak of max_central is mirrored exactly when unique; texts are mirrored digit by digit. Missing because the code violates it: exact limits (C129_violated_equal_tailed holds for every such chain: the cumulative sums lean to one side), ranges (C129_violated_range: the lowest point is left out) and the sign of zero (C129_violated_text: '-0\\pm 20'). For hdi the interval is as wide up to a step of the fine grid and 1e-12 (C129_hdi_width_partial), but of a flat marginal the lowest interval is reported for either sign (C129_violated_hdi). Not covered: chains that are not grids and the statistic max."
  },
  {
   "property": "C130",
   "status": "partial",
   "theorems": [
    "CC.C130_symmetric_partial",
    "CC.C130_violated",
    "CC.C130_violated_chain",
    "CC.C130_max_partial",
    "CC.C130_violated_peak",
    "CC.C130_violated_max",
    "CC.C130_violated_hdi",
    "CC.C130_violated_hdi_chain"
   ],
   "note": "Proved: all of them come out at exactly s - d/2 with d a 9999th of the range, so the property is violated for every such chain (C130_violated; the median of 0 and 1 with equal weights is 4999/9999, C130_violated_chain). Not covered: chains that are not grids (their ranges are not symmetric, C129_violated_range) and, for hdi, marginals that are not flat; for flat ones the interval is the lowest possible (C130_violated_hdi). For max, and marginals that rise to the middle, the interval is centred at s + d/2 unless it is the whole range, and the centre is at least d/2 away from s (C130_max_partial); so the centre of max and max_central is never s (C130_violated_peak). For 0, 1 and 2 with weights 1, 2 and 1 the interval of max is centred at 1 + 1/9999 (C130_violated_max)."
  },
  {
   "property": "C131",
   "status": "partial",
   "theorems": [
    "CC.C131_construction_partial",
    "CC.C131_summary_partial",
    "CC.C131_covariance_partial",
    "CC.C131_criteria_partial",
    "CC.C131_best_point_partial",
    "CC.C131_diagnostics_partial",
    "CC.C131_density_partial",
    "CC.C131_settings_partial",
    "CC.C131_figures_partial",
    "CC.C131_legend_partial",
    "CC.C131_violated",
    "CC.C131_violated_weight",
    "CC.C131_violated_witness"
   ],
   "note": "Proved for every change of names that neither gives nor takes a name of the list in Chain.data_columns (case insensitive). Violated otherwise: a parameter called e.g. 'Posteriors' is accepted and silently no parameter any more (C131_violated, every chain and parameter), one called 'weight' in a table without weights is taken for the weights or makes the chain be rejected (C131_violated_weight). Figures and the legend: C131_figures_partial, when the labels show the same texts; the distributions differ in the texts at the axes, which are bare names (see C78)."
  },
  {
   "property": "C132",
   "status": "partial",
   "theorems": [
    "CC.C132_construction_partial",
    "CC.C132_summary_partial",
    "CC.C132_covariance_partial",
    "CC.C132_criteria_partial",
    "CC.C132_best_point_partial",
    "CC.C132_diagnostics_partial",
    "CC.C132_density_partial",
    "CC.C132_figures_partial",
    "CC.C132_violated",
    "CC.C132_violated_weights_first"
   ],
   "note": "Proved for chains made without shift_params: acceptance both ways, and every report. The DIC for chains whose DIC does not depend on how ties are broken; Geweke for every test of normality that ignores the order of the scores. Violated with shift_params: with equal weights and the weight column in front of the parameters every table is rejected (C132_violated_weights_first), with the same columns and the weights last it may be accepted (C132_violated). All figures and the legend when the parameters to draw are given (C132_figures_partial; otherwise they are drawn in the order of the columns). Not covered: errors of get_summary without given columns (which error comes first depends on the order)."
  },
  {
   "property": "C133",
   "status": "partial",
   "theorems": [
    "CC.C133_added",
    "CC.C133_settings_partial",
    "CC.C133_summary",
    "CC.C133_criteria",
    "CC.C133_table",
    "CC.C133_best_points",
    "CC.C133_diagnostics",
    "CC.C133_ranges",
    "CC.C133_figures_partial",
    "CC.C133_corner_partial",
    "CC.C133_asked",
    "CC.C133_asked_partial",
    "CC.C133_shades_partial",
    "CC.C133_asked_shades",
    "CC.C133_default_partial",
    "CC.C133_rows",
    "CC.C133_rows_default_partial",
    "CC.C133_violated",
    "CC.C133_columns_violated"
   ],
   "note": "Everything proved but for the default parameters of chains with different columns and automatic colours, which the code hands out in order: two neighbours with automatic colours that change places change colours (C133_violated, for every such consumer); with given colours the settings agree entirely. The comparison table is the same text if the scores sorted by are numbers and differ, otherwise it has the same rows. A call that raises in one order raises in the other, but which of several exceptions comes first is not considered. Figures: walks and distributions of all chains and given parameters have the same panels with the same calls up to their order (C133_figures_partial), corner plots too if the chains are given colours (C133_corner_partial); if the chains to draw are asked for by name or object, walks, distributions and summary plots are the same (C133_asked), corner plots and legends too if the chains are given colours (C133_asked_partial). The corner plots also agree with automatic colours, if the given colours are hex colours and the gradients lie between -2 and 10 (C133_shades_partial, C133_asked_shades). With default parameters all of this holds for chains that share their columns (C133_default_partial). For chains with different columns it fails: these are listed in the order of the chains, so the first panel of the walks shows another parameter (C133_columns_violated). The rows of plot_summary follow the order of adding, by design, but show the same except for titles and tick labels of the parameters, which belong to the first and last row (C133_rows; C133_rows_default_partial for default parameters). Not covered: which chain is drawn above which (see C125)."
  },
  {
   "property": "C134",
   "status": "partial",
   "theorems": [
    "CC.C134_covariance",
    "CC.C134_aic",
    "CC.C134_bic",
    "CC.C134_gelman_rubin",
    "CC.C134_violated"
   ],
   "note": "Proved: means and covariances (at least two samples per walker), AIC (number of data points other than num_free_params + 1), BIC (number of data points other than 0), gelman_rubin for equal weights. Violated for best points: every walker besides the first raises KeyError (C134_violated, every such chain with default row labels). The DIC is not such a combination and is not considered; with shift_params divide() fails (C11)."
  },
  {
   "property": "C135",
   "status": "partial",
   "theorems": [
    "CC.C135_registry",
    "CC.C135_settings",
    "CC.C135_summary",
    "CC.C135_criteria",
    "CC.C135_table",
    "CC.C135_best_points",
    "CC.C135_diagnostics",
    "CC.C135_made",
    "CC.C135_divided",
    "CC.C135_walker_names",
    "CC.C135_violated_walkers",
    "CC.C135_violated_table"
   ],
   "note": "Proved for the registry (add, remove by name and by object, lookup, names), final settings, summaries, criteria, the table (cells after the name unchanged), best points and diagnostics of all chains, construction and divide(). Violated: a walker cannot be added next to a chain called like it (C135_violated_walkers), and a name with an ampersand has a cell too many in the comparison table (C135_violated_table). Figures are the subject of C140; the text of log messages is not considered."
  },
  {
   "property": "C136",
   "status": "partial",
   "theorems": [
    "CC.C136_own",
    "CC.C136_settings",
    "CC.C136_summary",
    "CC.C136_violated",
    "CC.C136_violated_opacity"
   ],
   "note": "Proved: the walker is the chain of its samples but for the record of given settings, and gets the same settings besides shade, bar_shade and shade_alpha, and the same summaries. Violated for these three, as divide() passes the whole model_dump: with five or more chains with contours walkers stay shaded (C136_violated), and their opacity stays 0.5, which is that of other chains only if four show contours (C136_violated_opacity); for every chain made without these settings."
  },
  {
   "property": "C137",
   "status": "partial",
   "theorems": [
    "CC.C137_apart_partial",
    "CC.C137_default",
    "CC.C137_threshold",
    "CC.C137_violated_short",
    "CC.C137_violated"
   ],
   "note": "Proved for thresholds t of 1 or more and for walkers of n steps with (1-t)^2 < (n-1)/n, that is eleven or more for the default (C137_default), and the part on thresholds in full. Missing because the code violates it: shorter walkers. |R - 1| < t is asked on both sides of 1 and R^2 is (n-1)/n for walkers of equal means, so that these fail (C137_violated_short, every such chain), and pass when moved apart (C137_violated, two walkers of two steps)."
  },
  {
   "property": "C138",
   "status": "partial",
   "theorems": [
    "CC.C138_narrowest_partial",
    "CC.C138_narrow_range",
    "CC.C138_violated"
   ],
   "note": "Proved for grids up to two steps of the 10000 point marginal (the HDI ends at points of the marginal, the others between them) and 1e-12, for steps of more than 1e-12 and areas above the mass of the first point. Missing because the code violates it: ranges of at most 1e-12, where intervals are skipped as empty and the HDI is the whole range (C138_narrow_range for every such grid chain, C138_violated for an accepted chain with the points 0 and 1e-13). Not covered: chains that are no grids, whose HDI is taken from another, wider marginal; the statistic max."
  },
  {
   "property": "C139",
   "status": "partial",
   "theorems": [
    "CC.C139_again_partial",
    "CC.C139_dump_partial",
    "CC.C139_violated_shift",
    "CC.C139_violated"
   ],
   "note": "Proved in full for chains without shift_params: weights that were added are found, colours are kept as codes, a resolved statistic is kept. Missing because the code violates it: chains with shift_params, whose shifted weights are not positive, so that every such chain is rejected when made again (C139_violated_shift, C139_violated)."
  },
  {
   "property": "C140",
   "status": "proved",
   "theorems": [
    "CC.C140_figures",
    "CC.C140_legend"
   ],
   "note": "C140_figures: for each of plot, plot_walks, plot_distributions and plot_summary the figure from the registry with renamed chains is the figure from the registry with the names replaced (`namedFig`), error for error. C140_legend: the same for the legend, whose labels are two blanks and the name. Both start at the registry, so automatic colours and settings (C135_settings) are included. Injectivity is needed only where chains are looked up by name. As in the model of figures, styles other than those of Legend are not part of a call, and how matplotlib renders a name (for example mathtext between dollar signs) is outside of the model."
  },
  {
   "property": "C141",
   "status": "partial",
   "theorems": [
    "CC.C141_construction",
    "CC.C141_summary",
    "CC.C141_reports",
    "CC.C141_figures_partial",
    "CC.C141_violated"
   ],
   "note": "Proved: acceptance and the chain made (all settings, shift_params included), summaries, LaTeX tables, covariances, correlations, AIC, BIC, DIC, the comparison table and both diagnostics. Figures and legends: proved when no drawn chain needs its best point. Violated for best points: max_posterior_row looks up the position of the largest posterior among the labels (chain.py 200), so with labels that are not integers the best point raises KeyError and with plot_point every panel that was drawn fails (C141_violated). Not covered: labels that are neither integers nor strings."
  },
  {
   "property": "C142",
   "status": "proved",
   "theorems": [
    "CC.C142_best_point",
    "CC.C142_settings",
    "CC.C142_figures",
    "CC.C142_reports"
   ],
   "note": "Proved on chains as registered. C142_figures is about chains whose posterior column has the same name (the default does), error for error. C142_reports treats one chain; the information criteria are the subject of C18 (same constant for all chains, since different constants change how models compare). With a cloud coloured by the posterior the colours show the values with the constant, and posterior columns used as weights are the subject of C18_violated; both are excluded by the statement."
  },
  {
   "property": "C143",
   "status": "proved",
   "theorems": [
    "CC.C143_reported",
    "CC.C143_outcome",
    "CC.C143_modes"
   ],
   "note": "for any kernel density estimator with nonnegative values; how near the level is to the exact one is C35, when multimodal chains have summaries is C89"
  }
 ]
}
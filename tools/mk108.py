import json
r={"mods":["Verif.NN.Omp","Verif.NN.PropsOmp","Verif.NN.PropsOmpEx"],"props":[["C108","Exceptions in builds with OpenMP",
"Built with OpenMP, convolution and pooling layers behave like the same layers built without, except that an error inside a parallel loop ends the program where it is otherwise thrown as an exception. After construction, inputs with at least one row are handled without that: wide enough ones give the same result and too narrow ones throw. The same holds for training a same-size convolution with a delta that has at most as many rows as the last input. Wrong sizes should never end the program.",
"all layers, inputs, deltas, weights, sizes",
"all sizes; whether an exception starts inside or outside a parallel loop depends on which of several size checks fails first, for every combination of sizes.",
["src/layer/conv2dlayer.cpp: forwardprop, backprop","src/layer/maxpoollayer.cpp: forwardprop","src/layer/meanpoollayer.cpp: forwardprop","cmake/find_headers.cmake: HAVE_OPENMP"]]],
"notes":{"C108":["partial","C108_same, C108_forward, C108_pooling, C108_backward: the exact behaviour. Refuted part: weights set to a smaller matrix (C108_weights_refuted), a delta with more rows than the last input (C108_rows_refuted) and every layer that changes the size of the picture, when trained (C108_geometry_refuted), terminate the program in a build with OpenMP where a build without throws. The iterations run in order in this model; C58 has their interleavings."]},
"design":"(C108) the loops again with the structured block of a parallel region turning an exception into the end of the program; loop invariants on the sizes."}
json.dump(r,open('/tmp/gen/r108.json','w'))

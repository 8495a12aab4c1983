import json
r={"mods":["Verif.NN.Photo","Verif.NN.PropsPhoto"],"props":[["C121","A picture in the convolution test program",
"The test program of the convolution layer lays a colour picture out as a sample such that the layer sees the picture, its output is the convolution of the picture with the kernels, and all its passes end normally.",
"all pictures, picture sizes, filter counts, windows, paddings, random weights and contents of uninitialised memory",
"all pictures and geometries: the program is run by hand on single pictures.",
["test/convlayer_test.cpp: resizeimg, main","src/layer/conv2dlayer.cpp: Conv2DLayer, forwardprop, backprop, toimage"]]],
"notes":{"C121":["partial","C121_sample: the layout, for all pictures. False: the sample is written row by row and read column by column, so that the layer convolves another picture (C121_misread, exact for stride 1; C121_square: mirrored at the diagonal if square; C121_refuted: wrong for every size from 2 x 2). C121_runs_partial: the program ends normally with stride 1 and spatial = 2*padding+1; C121_dies: with stride 1 and other windows the first backward pass throws. Missing: strides above 1 (the output is then partly indeterminate, C47_exact)."]},
"design":"(C121) `resizeimg` as three nested loops over a row vector; `main` with its three times 1000 passes; loop invariants on top of the closed forms of C47 and C49."}
json.dump(r,open('/tmp/gen/r121.json','w'))
